import Verif.Model.Str
import Verif.Spec.Demo
import Mathlib.Data.List.Forall2
/-!
# C88: `str` of a component says what it declares
-/

namespace Verif

/-! ## What the text should say -/

/-- The kind of a component and, with their headings, the names it declares. -/
structure Facts where
  kind : String
  cls : String
  groups : List (String × List String)
  deriving DecidableEq

/-- Components other than composites and time steppers. -/
def factsOf : StrObj → Option Facts
  | .stepper cls i o d => some ⟨"Stepper", cls, [("inputs", i), ("outputs", o), ("diagnostics", d)]⟩
  | .tendency cls i t d => some ⟨"TendencyComponent", cls, [("inputs", i), ("tendencies", t), ("diagnostics", d)]⟩
  | .implicit cls i t d =>
    some ⟨"ImplicitTendencyComponent", cls, [("inputs", i), ("tendencies", t), ("diagnostics", d)]⟩
  | .diagnostic cls i d => some ⟨"DiagnosticComponent", cls, [("inputs", i), ("diagnostics", d)]⟩
  | .monitor cls => some ⟨"Monitor", cls, []⟩
  | _ => none

/-- `repr` of a string without quotes. -/
def plainQuote (s : String) : String := "'" ++ s ++ "'"

/-- A text that is not cut by the punctuation around it. -/
def Facts.Clean (f : Facts) : Prop :=
  '(' ∉ f.cls.toList ∧ ∀ g ∈ f.groups, ∀ n ∈ g.2, '\'' ∉ n.toList

/-- A TendencyStepper is, or is somewhere in, the object. -/
inductive HasTimeStepper : StrObj → Prop
  | self (cls comps : String) : HasTimeStepper (.timeStepper cls comps)
  | part (cls : String) {parts : List StrObj} {p : StrObj} : p ∈ parts → HasTimeStepper p →
      HasTimeStepper (.composite cls parts)

/-! ## Formatting -/

theorem formatChars_lit (l : List Char) (h : '{' ∉ l) (rest : List Char) (args : List String) :
    formatChars (l ++ rest) args = formatChars rest args >>= fun t => .ok (l ++ t) := by
  induction l with
  | nil => simp only [List.nil_append]; cases formatChars rest args <;> rfl
  | cons c l ih =>
    simp only [List.mem_cons, not_or] at h
    rw [List.cons_append, formatChars.eq_def]
    split
    · rename_i heq; simp at heq; exact absurd heq.1.symm h.1
    · rename_i heq; simp at heq; exact absurd heq.1.symm h.1
    · rename_i heq _ _
      injection heq with e1 e2; subst e1; subst e2; rw [ih h.2]
      cases h : formatChars rest _ <;> rfl
    · rename_i heq; cases heq

theorem formatChars_end (l : List Char) (h : '{' ∉ l) (args : List String) : formatChars l args = .ok l := by
  have := formatChars_lit l h [] args
  rw [List.append_nil] at this
  rw [this]
  unfold formatChars
  rw [Exc.ok_bind, List.append_nil]

theorem formatChars_field (l : List Char) (h : '{' ∉ l) (rest : List Char) (a : String) (args : List String)
    (t : List Char) (ht : formatChars rest args = .ok t) :
    formatChars (l ++ '{' :: '}' :: rest) (a :: args) = .ok (l ++ (a.toList ++ t)) := by
  rw [formatChars_lit l h, formatChars, ht]
  rfl

theorem pyFormat_ok {template : String} {args : List String} {l : List Char}
    (h : formatChars template.toList args = .ok l) : pyFormat template args = .ok (String.ofList l) := by
  unfold pyFormat
  rw [h]
  rfl

/-- The text of a kind, a class and lists of names. -/
def strText (quote : String → String) (kind cls : String) (groups : List (String × List String)) : List Char :=
  "instance of ".toList ++ (cls.toList ++ ('(' :: (kind.toList ++ (')' ::
    groups.flatMap fun g => "\n    ".toList ++ (g.1.toList ++ (": ".toList ++ (keysText quote g.2).toList))))))

/-- What the kind is called in the text. -/
def shownKind (kind : String) : String := if kind = "ImplicitTendencyComponent" then "TendencyComponent" else kind

theorem format_fields (template : String) (fields : List (List Char × String)) (last : List Char)
    (hf : ∀ f ∈ fields, '{' ∉ f.1) (hl : '{' ∉ last)
    (ht : template.toList = fields.foldr (fun f rest => f.1 ++ '{' :: '}' :: rest) last) :
    pyFormat template (fields.map (·.2)) =
      .ok (String.ofList (fields.foldr (fun f rest => f.1 ++ (f.2.toList ++ rest)) last)) := by
  apply pyFormat_ok
  rw [ht]
  clear ht
  induction fields with
  | nil => exact formatChars_end _ hl _
  | cons f fields ih =>
    rw [List.foldr_cons, List.map_cons, List.foldr_cons]
    exact formatChars_field _ (hf f (by simp)) _ _ _ _ (ih fun g hg => hf g (List.mem_cons_of_mem _ hg))

/-- What stands before the first list of names. -/
def headOf (kind name : String) : List Char :=
  '(' :: (kind.toList ++ (')' :: ("\n    ".toList ++ (name.toList ++ ": ".toList))))

/-- What stands before a later list of names. -/
def lineOf (name : String) : List Char := "\n    ".toList ++ (name.toList ++ ": ".toList)

theorem strText_three (quote : String → String) (kind cls n₁ n₂ n₃ : String) (l₁ l₂ l₃ : List String) :
    strText quote kind cls [(n₁, l₁), (n₂, l₂), (n₃, l₃)] =
      "instance of ".toList ++ (cls.toList ++ (headOf kind n₁ ++ ((keysText quote l₁).toList ++
        (lineOf n₂ ++ ((keysText quote l₂).toList ++ (lineOf n₃ ++ ((keysText quote l₃).toList ++ []))))))) := by
  unfold strText headOf lineOf
  generalize "instance of ".toList = A
  generalize "\n    ".toList = B
  generalize ": ".toList = C
  simp only [List.flatMap_cons, List.flatMap_nil, List.append_assoc, List.cons_append, List.append_nil]

theorem strText_two (quote : String → String) (kind cls n₁ n₂ : String) (l₁ l₂ : List String) :
    strText quote kind cls [(n₁, l₁), (n₂, l₂)] =
      "instance of ".toList ++ (cls.toList ++ (headOf kind n₁ ++ ((keysText quote l₁).toList ++
        (lineOf n₂ ++ ((keysText quote l₂).toList ++ []))))) := by
  unfold strText headOf lineOf
  generalize "instance of ".toList = A
  generalize "\n    ".toList = B
  generalize ": ".toList = C
  simp only [List.flatMap_cons, List.flatMap_nil, List.append_assoc, List.cons_append, List.append_nil]

theorem stepperText_eq (quote : String → String) (cls : String) (i o d : List String) :
    stepperText quote cls i o d =
      .ok (String.ofList (strText quote "Stepper" cls [("inputs", i), ("outputs", o), ("diagnostics", d)])) := by
  rw [strText_three]
  exact format_fields "instance of {}(Stepper)\n    inputs: {}\n    outputs: {}\n    diagnostics: {}"
    [("instance of ".toList, cls), (headOf "Stepper" "inputs", keysText quote i),
      (lineOf "outputs", keysText quote o), (lineOf "diagnostics", keysText quote d)]
    [] (by simp only [List.forall_mem_cons, List.not_mem_nil, false_implies, implies_true, and_true]; decide +kernel) (by simp)
    (by simp only [List.foldr_cons, List.foldr_nil]; decide +kernel)

theorem tendencyText_eq (quote : String → String) (cls : String) (i o d : List String) :
    tendencyText quote cls i o d =
      .ok (String.ofList (strText quote "TendencyComponent" cls [("inputs", i), ("tendencies", o), ("diagnostics", d)])) := by
  rw [strText_three]
  exact format_fields "instance of {}(TendencyComponent)\n    inputs: {}\n    tendencies: {}\n    diagnostics: {}"
    [("instance of ".toList, cls), (headOf "TendencyComponent" "inputs", keysText quote i),
      (lineOf "tendencies", keysText quote o), (lineOf "diagnostics", keysText quote d)]
    [] (by simp only [List.forall_mem_cons, List.not_mem_nil, false_implies, implies_true, and_true]; decide +kernel) (by simp)
    (by simp only [List.foldr_cons, List.foldr_nil]; decide +kernel)

theorem implicitText_eq (quote : String → String) (cls : String) (i o d : List String) :
    implicitText quote cls i o d =
      .ok (String.ofList (strText quote "TendencyComponent" cls [("inputs", i), ("tendencies", o), ("diagnostics", d)])) := by
  rw [strText_three]
  exact format_fields "instance of {}(TendencyComponent)\n    inputs: {}\n    tendencies: {}\n    diagnostics: {}"
    [("instance of ".toList, cls), (headOf "TendencyComponent" "inputs", keysText quote i),
      (lineOf "tendencies", keysText quote o), (lineOf "diagnostics", keysText quote d)]
    [] (by simp only [List.forall_mem_cons, List.not_mem_nil, false_implies, implies_true, and_true]; decide +kernel) (by simp)
    (by simp only [List.foldr_cons, List.foldr_nil]; decide +kernel)

theorem diagnosticText_eq (quote : String → String) (cls : String) (i d : List String) :
    diagnosticText quote cls i d =
      .ok (String.ofList (strText quote "DiagnosticComponent" cls [("inputs", i), ("diagnostics", d)])) := by
  rw [strText_two]
  exact format_fields "instance of {}(DiagnosticComponent)\n    inputs: {}\n    diagnostics: {}"
    [("instance of ".toList, cls), (headOf "DiagnosticComponent" "inputs", keysText quote i),
      (lineOf "diagnostics", keysText quote d)]
    [] (by simp only [List.forall_mem_cons, List.not_mem_nil, false_implies, implies_true, and_true]; decide +kernel) (by simp)
    (by simp only [List.foldr_cons, List.foldr_nil]; decide +kernel)

theorem monitorText_eq (quote : String → String) (cls : String) :
    monitorText cls = .ok (String.ofList (strText quote "Monitor" cls [])) := by
  have e : strText quote "Monitor" cls [] =
      "instance of ".toList ++ (cls.toList ++ ('(' :: ("Monitor".toList ++ (')' :: [])))) := rfl
  rw [e]
  exact format_fields "instance of {}(Monitor)" [("instance of ".toList, cls)]
    ('(' :: ("Monitor".toList ++ (')' :: []))) (by simp only [List.forall_mem_cons, List.not_mem_nil, false_implies, implies_true, and_true]; decide +kernel) (by decide +kernel)
    (by simp only [List.foldr_cons, List.foldr_nil]; decide +kernel)

theorem strOf_facts (quote : String → String) {o : StrObj} {f : Facts} (h : factsOf o = some f) :
    strOf quote o = .ok (String.ofList (strText quote (shownKind f.kind) f.cls f.groups)) := by
  cases o with
  | stepper cls i o d =>
    injection h with h; subst h
    rw [strOf, stepperText_eq]
    rfl
  | tendency cls i o d =>
    injection h with h; subst h
    rw [strOf, tendencyText_eq]
    rfl
  | implicit cls i o d =>
    injection h with h; subst h
    rw [strOf, implicitText_eq]
    rfl
  | diagnostic cls i d =>
    injection h with h; subst h
    rw [strOf, diagnosticText_eq]
    rfl
  | monitor cls  =>
    injection h with h; subst h
    rw [strOf, monitorText_eq quote]
    rfl
  | composite cls parts => cases h
  | timeStepper cls comps => cases h
  | other t => cases h

/-! ## Reading a text -/

theorem split_at (c : Char) : ∀ {a b x y : List Char}, c ∉ a → c ∉ b → a ++ c :: x = b ++ c :: y → a = b ∧ x = y
  | [], [], _, _, _, _, e => ⟨rfl, (List.cons.inj e).2⟩
  | [], d :: b, _, _, _, hb, e => absurd ((List.cons.inj e).1 ▸ List.mem_cons_self) hb
  | d :: a, [], _, _, ha, _, e => absurd ((List.cons.inj e).1 ▸ List.mem_cons_self) ha
  | d :: a, d' :: b, x, y, ha, hb, e => by
    have h := List.cons.inj e
    have := split_at c (fun h => ha (List.mem_cons_of_mem _ h)) (fun h => hb (List.mem_cons_of_mem _ h)) h.2
    exact ⟨by rw [h.1, this.1], this.2⟩

/-- Quoted names with commas between them. -/
def namesChars : List String → List Char
  | [] => []
  | [n] => '\'' :: (n.toList ++ ['\''])
  | n :: m :: rest => '\'' :: (n.toList ++ ('\'' :: ',' :: ' ' :: namesChars (m :: rest)))

theorem joinText_names : ∀ l : List String, (joinText ", " (l.map plainQuote)).toList = namesChars l
  | [] => rfl
  | [n] => by simp [joinText, plainQuote, namesChars]
  | n :: m :: rest => by
    have ih := joinText_names (m :: rest)
    rw [List.map_cons, List.map_cons, joinText, String.toList_append, String.toList_append]
    · rw [List.map_cons] at ih
      rw [ih]
      simp [plainQuote, namesChars]
    · simp

theorem namesChars_cons (n : String) (rest : List String) : ∃ t, namesChars (n :: rest) = '\'' :: t := by
  cases rest with
  | nil => exact ⟨_, rfl⟩
  | cons m rest => exact ⟨_, rfl⟩

theorem names_inj : ∀ {l l' : List String} {x y : List Char}, (∀ n ∈ l, '\'' ∉ n.toList) → (∀ n ∈ l', '\'' ∉ n.toList) →
    namesChars l ++ ']' :: x = namesChars l' ++ ']' :: y → l = l' ∧ x = y
  | [], [], _, _, _, _, e => ⟨rfl, (List.cons.inj e).2⟩
  | [], n :: l, _, _, _, _, e => by
    obtain ⟨t, ht⟩ := namesChars_cons n l
    rw [ht] at e
    exact absurd (List.cons.inj e).1 (by decide)
  | n :: l, [], _, _, _, _, e => by
    obtain ⟨t, ht⟩ := namesChars_cons n l
    rw [ht] at e
    exact absurd (List.cons.inj e).1 (by decide)
  | [n], [n'], x, y, h, h', e => by
    simp only [namesChars, List.cons_append, List.append_assoc, List.nil_append] at e
    have := split_at '\'' (h n (by simp)) (h' n' (by simp)) (List.cons.inj e).2
    exact ⟨by rw [String.toList_inj.1 this.1], (List.cons.inj this.2).2⟩
  | [n], n' :: m' :: l', x, y, h, h', e => by
    simp only [namesChars, List.cons_append, List.append_assoc, List.nil_append] at e
    have := split_at '\'' (h n (by simp)) (h' n' (by simp)) (List.cons.inj e).2
    exact absurd (List.cons.inj this.2).1 (by decide)
  | n :: m :: l, [n'], x, y, h, h', e => by
    simp only [namesChars, List.cons_append, List.append_assoc, List.nil_append] at e
    have := split_at '\'' (h n (by simp)) (h' n' (by simp)) (List.cons.inj e).2
    exact absurd (List.cons.inj this.2).1 (by decide)
  | n :: m :: l, n' :: m' :: l', x, y, h, h', e => by
    simp only [namesChars, List.cons_append, List.append_assoc] at e
    have := split_at '\'' (h n (by simp)) (h' n' (by simp)) (List.cons.inj e).2
    have ih := names_inj (fun k hk => h k (List.mem_cons_of_mem _ hk)) (fun k hk => h' k (List.mem_cons_of_mem _ hk))
      (List.cons.inj (List.cons.inj this.2).2).2
    exact ⟨by rw [String.toList_inj.1 this.1, ih.1], ih.2⟩

theorem keysText_toList (l : List String) :
    (keysText plainQuote l).toList = "dict_keys([".toList ++ (namesChars l ++ (']' :: [')'])) := by
  unfold keysText
  rw [String.toList_append, String.toList_append, joinText_names, List.append_assoc]
  rfl

theorem groups_inj : ∀ {g g' : List (String × List String)}, g.map (·.1) = g'.map (·.1) →
    (∀ x ∈ g, ∀ n ∈ x.2, '\'' ∉ n.toList) → (∀ x ∈ g', ∀ n ∈ x.2, '\'' ∉ n.toList) →
    g.flatMap (fun g => "\n    ".toList ++ (g.1.toList ++ (": ".toList ++ (keysText plainQuote g.2).toList))) =
      g'.flatMap (fun g => "\n    ".toList ++ (g.1.toList ++ (": ".toList ++ (keysText plainQuote g.2).toList))) →
    g = g'
  | [], [], _, _, _, _ => rfl
  | [], _ :: _, hn, _, _, _ => by cases hn
  | _ :: _, [], hn, _, _, _ => by cases hn
  | (n, l) :: g, (n', l') :: g', hn, h, h', e => by
    have hh := List.cons.inj hn
    obtain rfl : n = n' := hh.1
    rw [List.flatMap_cons, List.flatMap_cons] at e
    simp only [keysText_toList, List.append_assoc] at e
    have e1 := List.append_cancel_left (List.append_cancel_left (List.append_cancel_left (List.append_cancel_left e)))
    have e2 := names_inj (h (n, l) (by simp)) (h' (n, l') (by simp)) e1
    have e3 := (List.cons.inj e2.2).2
    have ih := groups_inj hh.2 (fun x hx => h x (List.mem_cons_of_mem _ hx)) (fun x hx => h' x (List.mem_cons_of_mem _ hx))
      (by simp only [keysText_toList]; exact e3)
    have el : l = l' := e2.1
    rw [ih, el]

theorem strText_inj {kind kind' cls cls' : String} {g g' : List (String × List String)}
    (hk : ')' ∉ kind.toList) (hk' : ')' ∉ kind'.toList) (hc : '(' ∉ cls.toList) (hc' : '(' ∉ cls'.toList)
    (h : ∀ x ∈ g, ∀ n ∈ x.2, '\'' ∉ n.toList) (h' : ∀ x ∈ g', ∀ n ∈ x.2, '\'' ∉ n.toList)
    (hn : kind = kind' → g.map (·.1) = g'.map (·.1))
    (e : strText plainQuote kind cls g = strText plainQuote kind' cls' g') : kind = kind' ∧ cls = cls' ∧ g = g' := by
  unfold strText at e
  have e1 := split_at '(' hc hc' (List.append_cancel_left e)
  have e2 := split_at ')' hk hk' e1.2
  have hkk := String.toList_inj.1 e2.1
  exact ⟨hkk, String.toList_inj.1 e1.1, groups_inj (hn hkk) h h' e2.2⟩

theorem shownKind_plain {o : StrObj} {f : Facts} (h : factsOf o = some f) : ')' ∉ (shownKind f.kind).toList := by
  cases o <;> simp only [factsOf, Option.some.injEq, reduceCtorEq] at h <;> subst h <;> dsimp only <;> decide +kernel

theorem groups_of_kind {o o' : StrObj} {f f' : Facts} (h : factsOf o = some f) (h' : factsOf o' = some f')
    (e : shownKind f.kind = shownKind f'.kind) : f.groups.map (·.1) = f'.groups.map (·.1) := by
  cases o <;> simp only [factsOf, Option.some.injEq, reduceCtorEq] at h <;> subst h <;>
    cases o' <;> simp only [factsOf, Option.some.injEq, reduceCtorEq] at h' <;> subst h' <;>
    first
      | rfl
      | (dsimp only at e; exact absurd e (by decide +kernel))

/-! ## What the texts say -/

/-- Two base components with the same text are of the same class, declare the same names in
the same order, and are of the same kind unless one is an ImplicitTendencyComponent. -/
theorem str_tells_partial {o o' : StrObj} {f f' : Facts} (h : factsOf o = some f) (h' : factsOf o' = some f')
    (hc : f.Clean) (hc' : f'.Clean) (e : strOf plainQuote o = strOf plainQuote o') :
    f.cls = f'.cls ∧ f.groups = f'.groups ∧
      (f.kind ≠ "ImplicitTendencyComponent" → f'.kind ≠ "ImplicitTendencyComponent" → f = f') := by
  rw [strOf_facts plainQuote h, strOf_facts plainQuote h'] at e
  have et := String.ofList_injective (Except.ok.inj e)
  obtain ⟨hk, hcl, hg⟩ := strText_inj (shownKind_plain h) (shownKind_plain h') hc.1 hc'.1 hc.2 hc'.2
    (fun e => groups_of_kind h h' e) et
  refine ⟨hcl, hg, fun hi hi' => ?_⟩
  rw [shownKind, if_neg hi, shownKind, if_neg hi'] at hk
  cases f; cases f'
  cases hk; cases hcl; cases hg
  rfl

/-- The text of an ImplicitTendencyComponent is the text of a TendencyComponent. -/
theorem implicit_str_says_tendency (quote : String → String) (cls : String) (i t d : List String) :
    strOf quote (.implicit cls i t d) = strOf quote (.tendency cls i t d) ∧
      factsOf (.implicit cls i t d) ≠ factsOf (.tendency cls i t d) := by
  refine ⟨by rw [strOf, strOf, implicitText_eq, tendencyText_eq], fun e => ?_⟩
  simp only [factsOf, Option.some.injEq, Facts.mk.injEq] at e
  exact absurd e.1 (by decide +kernel)

theorem timeStepperText_error (comps : String) : timeStepperText comps = .error .indexError := by
  unfold timeStepperText pyFormat
  have e : ("instance of {}(TendencyStepper)\n    TendencyComponent components: {}" : String).toList =
      "instance of ".toList ++ '{' :: '}' :: ("(TendencyStepper)\n    TendencyComponent components: ".toList ++
        '{' :: '}' :: []) := by decide +kernel
  rw [e, formatChars_lit _ (by decide +kernel), formatChars, formatChars_lit _ (by decide +kernel), formatChars]
  rfl

theorem compositeText_eq (cls : String) (texts : List String) :
    compositeText cls texts = .ok (cls ++ "(\n" ++ joinText ",\n" texts ++ "\n)") := by
  have key := format_fields "{}(\n{}\n)" [([], cls), ("(\n".toList, joinText ",\n" texts)] "\n)".toList
    (by simp only [List.forall_mem_cons, List.not_mem_nil, false_implies, implies_true, and_true]; decide +kernel) (by decide +kernel)
    (by simp only [List.foldr_cons, List.foldr_nil]; decide +kernel)
  refine key.trans ?_
  congr 1
  apply String.toList_injective
  rw [String.toList_ofList]
  simp only [List.foldr_cons, List.foldr_nil, String.toList_append, List.append_assoc, List.nil_append]

mutual

theorem strOf_total (quote : String → String) : ∀ o : StrObj,
    (HasTimeStepper o ∧ strOf quote o = .error .indexError) ∨ (¬ HasTimeStepper o ∧ ∃ t, strOf quote o = .ok t)
  | .stepper cls i o d => .inr ⟨by rintro ⟨⟩, _, strOf_facts quote (o := .stepper cls i o d) rfl⟩
  | .tendency cls i o d => .inr ⟨by rintro ⟨⟩, _, strOf_facts quote (o := .tendency cls i o d) rfl⟩
  | .implicit cls i o d => .inr ⟨by rintro ⟨⟩, _, strOf_facts quote (o := .implicit cls i o d) rfl⟩
  | .diagnostic cls i d => .inr ⟨by rintro ⟨⟩, _, strOf_facts quote (o := .diagnostic cls i d) rfl⟩
  | .monitor cls => .inr ⟨by rintro ⟨⟩, _, strOf_facts quote (o := .monitor cls) rfl⟩
  | .timeStepper cls comps => .inl ⟨.self _ _, by rw [strOf, timeStepperText_error]⟩
  | .other t => .inr ⟨by rintro ⟨⟩, t, by rw [strOf]⟩
  | .composite cls parts => by
    rcases strAll_total quote parts with ⟨⟨p, hp, hs⟩, e⟩ | ⟨hn, ts, e⟩
    · exact .inl ⟨.part cls hp hs, by rw [strOf, e]; rfl⟩
    · refine .inr ⟨?_, _, by rw [strOf, e, Exc.ok_bind, compositeText_eq]⟩
      rintro ⟨⟩
      rename_i p hs hp
      exact hn p hp hs

theorem strAll_total (quote : String → String) : ∀ l : List StrObj,
    ((∃ p ∈ l, HasTimeStepper p) ∧ strAll quote l = .error .indexError) ∨
      ((∀ p ∈ l, ¬ HasTimeStepper p) ∧ ∃ ts, strAll quote l = .ok ts)
  | [] => .inr ⟨by simp, [], by rw [strAll]⟩
  | p :: rest => by
    rcases strOf_total quote p with ⟨hs, e⟩ | ⟨hn, t, e⟩
    · exact .inl ⟨⟨p, by simp, hs⟩, by rw [strAll, e]; rfl⟩
    rcases strAll_total quote rest with ⟨⟨q, hq, hs⟩, e'⟩ | ⟨hn', ts, e'⟩
    · exact .inl ⟨⟨q, by simp [hq], hs⟩, by rw [strAll, e, Exc.ok_bind, e']; rfl⟩
    · exact .inr ⟨by simpa using ⟨hn, hn'⟩, t :: ts, by rw [strAll, e, Exc.ok_bind, e']; rfl⟩

end

/-- `str` of an object raises, and then IndexError, exactly if a TendencyStepper is in it. -/
theorem str_raises_iff (quote : String → String) (o : StrObj) :
    (HasTimeStepper o ↔ strOf quote o = .error .indexError) ∧
      (¬ HasTimeStepper o ↔ ∃ t, strOf quote o = .ok t) := by
  rcases strOf_total quote o with ⟨h, e⟩ | ⟨h, t, e⟩
  · exact ⟨⟨fun _ => e, fun _ => h⟩, ⟨fun hn => absurd h hn, fun ⟨t, ht⟩ => by rw [e] at ht; cases ht⟩⟩
  · exact ⟨⟨fun hs => absurd hs h, fun he => by rw [e] at he; cases he⟩, ⟨fun _ => ⟨t, e⟩, fun _ => h⟩⟩

/-- The text of a composite is the name of its class and the texts of its components, in order. -/
theorem composite_str (quote : String → String) {cls : String} {parts : List StrObj} {t : String}
    (h : strOf quote (.composite cls parts) = .ok t) :
    ∃ texts : List String, List.Forall₂ (fun p x => strOf quote p = .ok x) parts texts ∧
      t = cls ++ "(\n" ++ String.intercalate ",\n" texts ++ "\n)" := by
  rw [strOf] at h
  obtain ⟨ts, h1, h2⟩ := Exc.bind_ok_iff.1 h
  rw [compositeText_eq] at h2
  refine ⟨ts, ?_, ?_⟩
  · clear h h2
    induction parts generalizing ts with
    | nil => rw [strAll] at h1; cases h1; exact .nil
    | cons p parts ih =>
      rw [strAll] at h1
      obtain ⟨x, hx, h1⟩ := Exc.bind_ok_iff.1 h1
      obtain ⟨xs, hxs, h1⟩ := Exc.bind_ok_iff.1 h1
      cases h1
      exact .cons hx (ih xs hxs)
  · have hj : ∀ l : List String, joinText ",\n" l = String.intercalate ",\n" l := by
      intro l
      induction l with
      | nil => rfl
      | cons a l ih =>
        cases l with
        | nil => rw [joinText, String.intercalate_singleton]
        | cons b l => rw [joinText, ih, String.intercalate_cons_cons]; simp
    rw [← hj]
    exact (Except.ok.inj h2).symm

namespace Demo

/-- Radiation that reads a temperature and gives a heating rate, in its two kinds. -/
def radiationText : StrObj := .tendency "<class 'Radiation'>" ["air_temperature", "pressure"] ["air_temperature"] []

def implicitRadiationText : StrObj :=
  .implicit "<class 'Radiation'>" ["air_temperature", "pressure"] ["air_temperature"] []

/-- The hypotheses of `str_tells_partial` hold of it. -/
example : ∃ f, factsOf radiationText = some f ∧ f.Clean ∧ f.groups.length = 3 :=
  ⟨_, rfl, ⟨by decide +kernel, by
    simp only [List.forall_mem_cons, List.not_mem_nil, false_implies, implies_true, and_true]
    decide +kernel⟩, rfl⟩

/-- Its text. -/
example : Exc.test (strOf plainQuote radiationText) (fun t => t ==
    "instance of <class 'Radiation'>(TendencyComponent)\n    inputs: dict_keys(['air_temperature', 'pressure'])\n    tendencies: dict_keys(['air_temperature'])\n    diagnostics: dict_keys([])") = true := by
  decide +kernel

/-- A composite of the two: `composite_str` has a case. -/
example : Exc.test (strOf plainQuote (.composite "C" [.other "a", .other "b"])) (fun t => t == "C(\na,\nb\n)") = true := by
  decide +kernel

/-- Both sides of `str_raises_iff` occur: no composite of components raises, one that holds a stepper does. -/
example : ¬ HasTimeStepper (.composite "C" [radiationText, .other "b"]) ∧
    HasTimeStepper (.composite "C" [radiationText, .timeStepper "AdamsBashforth" "[]"]) := by
  refine ⟨?_, .part _ (.tail _ (.head _)) (.self _ _)⟩
  rintro ⟨⟩
  rename_i p hs hp
  simp only [List.mem_cons, List.not_mem_nil, or_false] at hp
  rcases hp with rfl | rfl <;> cases hs

end Demo

end Verif

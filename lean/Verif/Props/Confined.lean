import Verif.Spec.Confined
import Verif.Props.Alike
import Verif.Lemmas.Backend
import Verif.Lemmas.SteppersOver
import Verif.Model.Rounding
import Verif.Spec.Demo
/-!
# Time steppers carry nothing from one point of the grid to another (C122)
-/

namespace Verif

section
variable {F : Type} {B : (String → Nat) → Prop}

theorem agreeOff_map (f : F → F) (m : Dict String) {a b : ElemArray F} (h : AgreeOff B a b) :
    AgreeOff B { a.map f with attrs := m } { b.map f with attrs := m } where
  dims := h.dims
  shape := h.shape
  attrs := rfl
  val ix hix hB := congrArg f (h.val ix hix hB)

theorem elem_named (dims : List String) (a : ElemArray F) (ix : String → Nat) (h : ∀ d ∈ a.dims, d ∈ dims) :
    a.at' (DataArray.named dims (dims.map ix)) = a.at' ix := by
  unfold ElemArray.at'
  congr 1
  exact List.map_congr_left (fun d hd => DataArray.named_map (h d hd))

theorem AgreeOff.len {a b : ElemArray F} (h : AgreeOff B a b) (d : String) : a.len d = b.len d := by
  unfold ElemArray.len; rw [h.dims, h.shape]

theorem agreeOff_binop (f : F → F → F) {a a' b b' : ElemArray F} (ha : AgreeOff B a a') (hb : AgreeOff B b b') :
    Exc.Rel (AgreeOff B) (ElemArray.binop f a b) (ElemArray.binop f a' b') := by
  unfold ElemArray.binop
  have hc : (∀ d ∈ b.dims, d ∈ a.dims → b.len d = a.len d) ↔ (∀ d ∈ b'.dims, d ∈ a'.dims → b'.len d = a'.len d) := by
    simp only [ha.dims, hb.dims, ha.len, hb.len]
  by_cases h : ∀ d ∈ b.dims, d ∈ a.dims → b.len d = a.len d
  · simp only [if_pos h, if_pos (hc.1 h)]
    refine ⟨by simp only [ha.dims, hb.dims], ?_, ha.attrs, ?_⟩
    · simp only [ha.dims, hb.dims, ha.len, hb.len]
    · intro ix hix hB
      have hl : ∀ d ∈ a.dims ++ b.dims.filter (fun d => d ∉ a.dims), ix d < if d ∈ a.dims then a.len d else b.len d := by
        intro d hd
        have := hix d hd
        unfold ElemArray.len at this
        rw [DataArray.named_map hd] at this
        exact this
      have hA : ∀ d ∈ a.dims, d ∈ a.dims ++ b.dims.filter (fun d => d ∉ a.dims) := fun d hd => List.mem_append_left _ hd
      have hBd : ∀ d ∈ b.dims, d ∈ a.dims ++ b.dims.filter (fun d => d ∉ a.dims) := by
        intro d hd
        by_cases h' : d ∈ a.dims
        · exact hA d h'
        · exact List.mem_append_right _ (List.mem_filter.2 ⟨hd, by simpa using h'⟩)
      have e1 : a.at' ix = a'.at' ix := by
        refine ha.val ix (fun d hd => ?_) hB
        have := hl d (hA d hd)
        rwa [if_pos hd] at this
      have e2 : b.at' ix = b'.at' ix := by
        refine hb.val ix (fun d hd => ?_) hB
        have := hl d (hBd d hd)
        by_cases h' : d ∈ a.dims
        · rw [if_pos h', ← h d hd h'] at this; exact this
        · rwa [if_neg h'] at this
      show f (a.at' (DataArray.named _ (List.map ix _))) (b.at' (DataArray.named _ (List.map ix _))) =
        f (a'.at' (DataArray.named _ (List.map ix _))) (b'.at' (DataArray.named _ (List.map ix _)))
      rw [← ha.dims, ← hb.dims]
      rw [elem_named _ a ix hA, elem_named _ b ix hBd, elem_named _ a' ix (by rw [← ha.dims]; exact hA),
        elem_named _ b' ix (by rw [← hb.dims]; exact hBd), e1, e2]
  · simp only [if_neg h, if_neg (fun h' => h (hc.2 h'))]
    rfl

theorem agreeOff_toUnits (R : Registry) (E : Elem F) {a b : ElemArray F} (h : AgreeOff B a b) (u : String) :
    Exc.Rel (AgreeOff B) (ElemArray.toUnits R E a u) (ElemArray.toUnits R E b u) := by
  unfold ElemArray.toUnits ElemArray.dataArrayToUnits
  rw [h.attrs]
  cases b.attrs.get? "units" with
  | none => rfl
  | some own =>
    dsimp only
    cases R.unit own with
    | error e => cases e <;> rfl
    | ok x =>
      cases R.unit u with
      | error e => cases e <;> rfl
      | ok y =>
        simp only [Exc.ok_bind]
        by_cases h1 : x.sameQty y = true
        · simp only [if_pos h1]; exact h
        · simp only [if_neg h1]
          by_cases h2 : x.dim = y.dim
          · simp only [if_pos h2]
            exact agreeOff_map _ _ h
          · simp only [if_neg h2]; rfl

/-- The operations on arrays keep agreement outside a region, whatever the operations on elements. -/
theorem elem_alike (R : Registry) (E : Elem F) (B : (String → Nat) → Prop) :
    Alike (elemArith R E) (elemArith R E) (fun _ => AgreeOff B) (fun _ => AgreeOff B) (fun _ => AgreeOff B) where
  attrsS h := h.attrs
  attrsT h := h.attrs
  container _ := rfl
  toUnitsS h u := agreeOff_toUnits R E h u
  toUnitsT h u := agreeOff_toUnits R E h u
  smulS h c := agreeOff_map _ _ h
  smulT h c := agreeOff_map _ _ h
  setAttrs h m := ⟨h.dims, h.shape, rfl, h.val⟩
  divide h c := agreeOff_map _ _ h
  addSS h h' := agreeOff_binop _ h h'
  addST h h' := agreeOff_binop _ h h'
  addTT h h' := agreeOff_binop _ h h'
  subSS h h' := agreeOff_binop _ h h'
  subTT h h' := agreeOff_binop _ h h'
  iadd {k v a w b} h h' := by
    show Exc.Rel (AgreeOff B) (if ∀ d ∈ w.dims, d ∈ v.dims then _ else _) (if ∀ d ∈ b.dims, d ∈ a.dims then _ else _)
    rw [h.dims, h'.dims]
    by_cases hc : ∀ d ∈ b.dims, d ∈ a.dims
    · rw [if_pos hc, if_pos hc]; exact agreeOff_binop _ h h'
    · rw [if_neg hc, if_neg hc]; rfl
  diag h _ := h

variable {σ : Type} {Z : σ → σ → Prop} (R : Registry) (E : Elem F) {p : ProgOver σ (ElemArray F)}

/-- **Composites carry nothing out of a region** if their components do not. -/
theorem composite_confined {cs : List (ProgOver σ (ElemArray F))} (h : ∀ p ∈ cs, KeepsRegion B Z p) :
    KeepsRegion B Z (compositeO (elemArith R E) cs) :=
  composite_pair (elem_alike R E B) (by
    induction cs with
    | nil => exact List.Forall₂.nil
    | cons p cs ih =>
      exact List.Forall₂.cons (h p List.mem_cons_self) (ih (fun q hq => h q (List.mem_cons_of_mem _ hq))))

/-- **A call of AdamsBashforth** (any order, with or without tendencies in diagnostics) on states that
agree outside a region returns states and diagnostics that agree outside it, or raises the same exception;
its memories still agree outside it. -/
theorem ab_confined (hp : KeepsRegion B Z p) (inProps outProps : PropDict) (inst : String) (tid : Bool)
    {ab ab' : ABOver (ElemArray F)} (hab : ABPair (fun _ => AgreeOff B) ab ab') {s s' : σ} (hz : Z s s')
    {x x' : EState (ElemArray F)} (hx : StatesAgreeOff B x x') (dt : Int) :
    CallPair Eq Z (ABPair (fun _ => AgreeOff B)) (fun _ => AgreeOff B) (fun _ => AgreeOff B)
      (tsCallO (elemArith R E) inProps outProps inst tid (abCallO (elemArith R E) p) ab s x dt)
      (tsCallO (elemArith R E) inProps outProps inst tid (abCallO (elemArith R E) p) ab' s' x' dt) := by
  obtain ⟨h1, h2, h3⟩ := ab_pair (elem_alike R E B) hp hab hz hx dt
  exact stepper_pair (elem_alike R E B) _ inProps outProps inst tid dt ⟨h1, h2, hx, h3⟩

/-- **A call of SSPRungeKutta**, likewise. -/
theorem ssprk_confined (hp : KeepsRegion B Z p) (three : Bool) (inProps outProps : PropDict) (inst : String) (tid : Bool)
    {ab ab' : ABOver (ElemArray F)} (hab : ABPair (fun _ => AgreeOff B) ab ab') {s s' : σ} (hz : Z s s')
    {x x' : EState (ElemArray F)} (hx : StatesAgreeOff B x x') (dt : Int) :
    CallPair Eq Z (ABPair (fun _ => AgreeOff B)) (fun _ => AgreeOff B) (fun _ => AgreeOff B)
      (tsCallO (elemArith R E) inProps outProps inst tid (sspCallO (elemArith R E) p three) ab s x dt)
      (tsCallO (elemArith R E) inProps outProps inst tid (sspCallO (elemArith R E) p three) ab' s' x' dt) := by
  obtain ⟨h1, h2, h3⟩ := ssprk_pair (elem_alike R E B) hp three hab hz hx dt
  exact stepper_pair (elem_alike R E B) _ inProps outProps inst tid dt ⟨h1, h2, hx, h3⟩

/-- **A call of Leapfrog**, likewise; the filtered state that was passed agrees outside the region too. -/
theorem leapfrog_confined (hp : KeepsRegion B Z p) (inProps outProps : PropDict) (inst : String) (tid : Bool)
    {lf lf' : LFOver (ElemArray F)} (hlf : LFPair Eq (fun _ => AgreeOff B) lf lf') {s s' : σ} (hz : Z s s')
    {x x' : EState (ElemArray F)} (hx : StatesAgreeOff B x x') (dt : Int) :
    CallPair Eq Z (LFPair Eq (fun _ => AgreeOff B)) (fun _ => AgreeOff B) (fun _ => AgreeOff B)
      (tsCallO (elemArith R E) inProps outProps inst tid (LFOver.call (elemArith R E) p) lf s x dt)
      (tsCallO (elemArith R E) inProps outProps inst tid (LFOver.call (elemArith R E) p) lf' s' x' dt) :=
  stepper_pair (elem_alike R E B) _ inProps outProps inst tid dt (leapfrog_pair (elem_alike R E B) hp hlf hz hx dt)

theorem abPair_refl (T : String → ElemArray F → ElemArray F → Prop) (order : Nat) :
    ABPair T (V := ElemArray F) { order := order } { order := order } := ⟨rfl, rfl, List.Forall₂.nil⟩

theorem lfPair_refl (S : String → ElemArray F → ElemArray F → Prop) (strength alpha : Rat) :
    LFPair Eq S (V := ElemArray F) { strength := strength, alpha := alpha } { strength := strength, alpha := alpha } :=
  ⟨rfl, rfl, rfl, trivial⟩

/-- **A component in an UpdateFrequencyWrapper carries nothing out of the region** if the component does not: what it
remembers agrees outside the region too. -/
theorem updating_confined (hp : KeepsRegion B Z p) (implicit : Bool) :
    KeepsRegion B (CachesAgreeOff B Z) (updatingO implicit p) :=
  updating_pair (fun t t' u u' h h' => by rw [h, h']) hp implicit

/-- **The whole run, for every time stepper**: fresh AdamsBashforth (any order), SSPRungeKutta and Leapfrog
steppers, started from states that agree outside a region, with components that carry nothing out of it, end after
any number of steps with states that agree outside it, or both with the same exception, if what happens between the
calls (`between`) carries nothing out of it either. -/
theorem main_loops_confined (hp : KeepsRegion B Z p) (inProps outProps : PropDict) (inst : String) (tid : Bool)
    (between : Dict (ElemArray F) → EState (ElemArray F) → EState (ElemArray F))
    (hb : ∀ d d' y y', DictRel (AgreeOff B) d d' → StatesAgreeOff B y y' → StatesAgreeOff B (between d y) (between d' y'))
    (dt : Int) (n : Nat) {s s' : σ} (hz : Z s s') {y y' : EState (ElemArray F)} (hy : StatesAgreeOff B y y') :
    (∀ order, RunPair Eq Z (ABPair fun _ => AgreeOff B) (fun _ => AgreeOff B)
      (runOver (tsCallO (elemArith R E) inProps outProps inst tid (abCallO (elemArith R E) p)) between dt n
        { order := order } s y)
      (runOver (tsCallO (elemArith R E) inProps outProps inst tid (abCallO (elemArith R E) p)) between dt n
        { order := order } s' y')) ∧
    (∀ three, RunPair Eq Z (ABPair fun _ => AgreeOff B) (fun _ => AgreeOff B)
      (runOver (tsCallO (elemArith R E) inProps outProps inst tid (sspCallO (elemArith R E) p three)) between dt n
        { order := 1 } s y)
      (runOver (tsCallO (elemArith R E) inProps outProps inst tid (sspCallO (elemArith R E) p three)) between dt n
        { order := 1 } s' y')) ∧
    (∀ strength alpha, RunPair Eq Z (LFPair Eq fun _ => AgreeOff B) (fun _ => AgreeOff B)
      (runOver (tsCallO (elemArith R E) inProps outProps inst tid (LFOver.call (elemArith R E) p)) between dt n
        { strength := strength, alpha := alpha } s y)
      (runOver (tsCallO (elemArith R E) inProps outProps inst tid (LFOver.call (elemArith R E) p)) between dt n
        { strength := strength, alpha := alpha } s' y')) :=
  ⟨fun order => run_pair (fun _ _ _ _ _ _ dt h hz h' => ab_confined R E hp inProps outProps inst tid h hz h' dt)
      hb dt n (abPair_refl _ order) hz hy,
   fun three => run_pair (fun _ _ _ _ _ _ dt h hz h' => ssprk_confined R E hp three inProps outProps inst tid h hz h' dt)
      hb dt n (abPair_refl _ 1) hz hy,
   fun strength alpha => run_pair
      (fun _ _ _ _ _ _ dt h hz h' => leapfrog_confined R E hp inProps outProps inst tid h hz h' dt)
      hb dt n (lfPair_refl _ strength alpha) hz hy⟩

/-! ## Elements that absorb -/

theorem has_map (f : F → F) (m : Dict String) {ix : String → Nat} {x : F} (hf : f x = x) {a : ElemArray F}
    (h : a.at' ix = x) : ElemArray.at' { a.map f with attrs := m } ix = x := by
  show f (a.at' ix) = x
  rw [h, hf]

theorem binop_at {f : F → F → F} {a b r : ElemArray F} (h : ElemArray.binop f a b = .ok r) (ix : String → Nat) :
    r.at' ix = f (a.at' ix) (b.at' ix) := by
  unfold ElemArray.binop at h
  by_cases hc : ∀ d ∈ b.dims, d ∈ a.dims → b.len d = a.len d
  · simp only [if_pos hc] at h
    cases h
    show f (a.at' (DataArray.named _ (List.map ix _))) (b.at' (DataArray.named _ (List.map ix _))) = _
    rw [elem_named, elem_named]
    · intro d hd
      by_cases h' : d ∈ a.dims
      · exact List.mem_append_left _ h'
      · exact List.mem_append_right _ (List.mem_filter.2 ⟨hd, by simpa using h'⟩)
    · exact fun d hd => List.mem_append_left _ hd
  · simp only [if_neg hc] at h
    cases h

theorem exc_self {α : Type} {P : α → α → Prop} {x : Except Err α} (h : ∀ r, x = .ok r → P r r) : Exc.Rel P x x := by
  cases x with
  | error e => rfl
  | ok r => exact h r rfl

theorem has_binop {f : F → F → F} {ix : String → Nat} {x : F} {Q : Prop} {a b : ElemArray F}
    (hf : Q → f (a.at' ix) (b.at' ix) = x) :
    Exc.Rel (fun v w => v = w ∧ (Q → w.at' ix = x)) (ElemArray.binop f a b) (ElemArray.binop f a b) :=
  exc_self (fun r hr => ⟨rfl, fun hq => by rw [binop_at hr ix]; exact hf hq⟩)

theorem has_toUnits (R : Registry) {E : Elem F} {ix : String → Nat} {x : F} (hx : Absorbs E x) {Q : Prop}
    {a : ElemArray F} (h : Q → a.at' ix = x) (u : String) :
    Exc.Rel (fun v w => v = w ∧ (Q → w.at' ix = x)) (ElemArray.toUnits R E a u) (ElemArray.toUnits R E a u) := by
  refine exc_self (fun r hr => ⟨rfl, fun hq => ?_⟩)
  unfold ElemArray.toUnits ElemArray.dataArrayToUnits at hr
  cases hu : a.attrs.get? "units" with
  | none => rw [hu] at hr; cases hr
  | some own =>
    rw [hu] at hr
    dsimp only at hr
    cases h1 : R.unit own with
    | error e => rw [h1] at hr; cases e <;> cases hr
    | ok y =>
      cases h2 : R.unit u with
      | error e => rw [h1, h2] at hr; cases e <;> cases hr
      | ok z =>
        rw [h1, h2] at hr
        simp only [Exc.ok_bind] at hr
        by_cases h3 : y.sameQty z = true
        · simp only [if_pos h3] at hr
          cases hr; exact h hq
        · simp only [if_neg h3] at hr
          by_cases h4 : y.dim = z.dim
          · simp only [if_pos h4] at hr
            cases hr
            exact has_map _ _ (hx.conv y z) (h hq)
          · simp only [if_neg h4] at hr
            cases hr

/-- Every operation gives `x` at a point where an operand that is a value of the state has `x`. -/
theorem absorbing_alike (R : Registry) {E : Elem F} {x : F} (hx : Absorbs E x) (q : String) (ix : String → Nat) :
    Alike (elemArith R E) (elemArith R E) (fun k v w => v = w ∧ (k = q → w.at' ix = x)) (fun _ v w => v = w)
      (fun _ v w => v = w) where
  attrsS h := by rw [h.1]
  attrsT h := by rw [h]
  container _ := rfl
  toUnitsS h u := by obtain ⟨rfl, h⟩ := h; exact has_toUnits R hx h u
  toUnitsT h u := by subst h; exact Exc.Rel.of_eq rfl
  smulS h c := by obtain ⟨rfl, h⟩ := h; exact ⟨rfl, fun e => has_map _ _ (hx.mulc c) (h e)⟩
  smulT h c := by subst h; rfl
  setAttrs h m := by obtain ⟨rfl, h⟩ := h; exact ⟨rfl, h⟩
  divide h c := by obtain ⟨rfl, h⟩ := h; exact ⟨rfl, fun e => has_map _ _ (hx.divc c) (h e)⟩
  addSS h h' := by
    obtain ⟨rfl, h⟩ := h; obtain ⟨rfl, h'⟩ := h'
    exact has_binop (fun e => by rw [h e]; exact hx.addl _)
  addST h h' := by
    obtain ⟨rfl, h⟩ := h; subst h'
    exact has_binop (fun e => by rw [h e]; exact hx.addl _)
  addTT h h' := by subst h h'; exact Exc.Rel.of_eq rfl
  subSS h h' := by
    obtain ⟨rfl, h⟩ := h; obtain ⟨rfl, h'⟩ := h'
    exact has_binop (fun e => by rw [h e]; exact hx.subl _)
  subTT h h' := by subst h h'; exact Exc.Rel.of_eq rfl
  iadd {k v a w b} h h' := by
    obtain ⟨rfl, h⟩ := h; obtain ⟨rfl, h'⟩ := h'
    show Exc.Rel _ (if ∀ d ∈ w.dims, d ∈ v.dims then _ else _) (if ∀ d ∈ w.dims, d ∈ v.dims then _ else _)
    by_cases hc : ∀ d ∈ w.dims, d ∈ v.dims
    · rw [if_pos hc]; exact has_binop (fun e => by rw [h e]; exact hx.addl _)
    · rw [if_neg hc]; rfl
  diag h _ := h.1

theorem entryPair_has {q : String} {ix : String → Nat} {x : F} {k : String} {v w : Entry (ElemArray F)}
    (h : EntryPair Eq (fun k v w => v = w ∧ (k = q → w.at' ix = x)) k v w) :
    v = w ∧ (k = q → ∀ a, w = .da a → a.at' ix = x) := by
  cases v <;> cases w
  · exact ⟨congrArg _ h.1, fun e a ha => by cases ha; exact h.2 e⟩
  · exact h.elim
  · exact h.elim
  · exact ⟨congrArg _ h, fun e a ha => by cases ha⟩

theorem has_eq {q : String} {ix : String → Nat} {x : F} {y z : EState (ElemArray F)}
    (h : PairRel Eq (fun k v w => v = w ∧ (k = q → w.at' ix = x)) y z) : y = z := by
  induction h with
  | nil => rfl
  | cons hab hl ih =>
    rename_i a b l l'
    obtain ⟨ka, va⟩ := a
    obtain ⟨kb, vb⟩ := b
    obtain ⟨hk, hv⟩ := hab
    simp only at hk hv
    subst hk
    rw [ih, (entryPair_has hv).1]

theorem has_refl {q : String} {ix : String → Nat} {x : F} {y : EState (ElemArray F)}
    (h : ∀ a, (q, Entry.da a) ∈ y → a.at' ix = x) : PairRel Eq (fun k v w => v = w ∧ (k = q → w.at' ix = x)) y y := by
  induction y with
  | nil => exact List.Forall₂.nil
  | cons e y ih =>
    obtain ⟨k, v⟩ := e
    refine List.Forall₂.cons ⟨rfl, ?_⟩ (ih (fun a ha => h a (List.mem_cons_of_mem _ ha)))
    cases v with
    | da a => exact ⟨rfl, fun e => h a (by rw [← e]; exact List.mem_cons_self)⟩
    | time t => rfl

theorem has_mem {q : String} {ix : String → Nat} {x : F} {y z : EState (ElemArray F)}
    (h : PairRel Eq (fun k v w => v = w ∧ (k = q → w.at' ix = x)) y z) (a : ElemArray F) (ha : (q, Entry.da a) ∈ z) :
    a.at' ix = x := by
  induction h with
  | nil => cases ha
  | cons hab hl ih =>
    rename_i u b l l'
    obtain ⟨ka, va⟩ := u
    obtain ⟨kb, vb⟩ := b
    obtain ⟨hk, hv⟩ := hab
    simp only at hk hv
    subst hk
    rcases List.mem_cons.1 ha with e | e
    · cases e; exact (entryPair_has hv).2 rfl a rfl
    · exact ih e

theorem keyRel_self {α : Type} {r : String → α → α → Prop} (h : ∀ k v, r k v v) (d : Dict α) : KeyRel r d d := by
  induction d with
  | nil => exact List.Forall₂.nil
  | cons e d ih => exact List.Forall₂.cons ⟨rfl, h _ _⟩ ih

theorem abPair_self (ab : ABOver (ElemArray F)) : ABPair (fun _ v w => v = w) ab ab := by
  refine ⟨rfl, rfl, ?_⟩
  induction ab.hist with
  | nil => exact List.Forall₂.nil
  | cons d l ih => exact List.Forall₂.cons (keyRel_self (fun _ _ => rfl) d) ih

theorem prog_self (p : ProgOver σ (ElemArray F)) (q : String) (ix : String → Nat) (x : F) :
    ProgPair Eq Eq (fun k v w => v = w ∧ (k = q → w.at' ix = x)) (fun _ v w => v = w) (fun _ v w => v = w) p p := by
  intro s s' y z dt hz h
  subst hz
  rw [has_eq h]
  refine ⟨rfl, ?_⟩
  cases (p s z dt).2 with
  | error e => rfl
  | ok r => exact ⟨keyRel_self (fun _ _ => rfl) _, keyRel_self (r := fun _ v w => v = w) (fun _ _ => rfl) _⟩

theorem tsCallO_keys {V τ : Type} {A : Arith V} {inProps outProps : PropDict} {inst : String} {tid : Bool}
    {call : τ → σ → EState V → Int → τ × σ × EState V × Except Err (Dict V × EState V)} {t : τ} {s : σ} {y : EState V}
    {dt : Int} {d : Dict V} {new : EState V}
    (h : (tsCallO A inProps outProps inst tid call t s y dt).2.2.2 = .ok (d, new)) :
    ∀ k ∈ Dict.keys (call t s y dt).2.2.1, k ∈ Dict.keys new := by
  intro k hk
  unfold tsCallO at h
  obtain ⟨o, _, h⟩ := Exc.bind_ok_iff.1 h
  obtain ⟨d', _, h⟩ := Exc.bind_ok_iff.1 h
  cases h
  exact ((copyUntouchedO_spec _ _).1 k).2 (.inl hk)

theorem stepLeapfrogO_keys {V : Type} (A : Arith V) (strength alpha : Rat) (o : EState V) (t : Dict V) (dt : Int)
    (ks : List String) (y n : EState V) :
    ∀ k ∈ Dict.keys y, k ∈ Dict.keys (stepLeapfrogO A strength alpha o t dt ks y n).1 := by
  induction ks generalizing y n with
  | nil => exact fun k hk => hk
  | cons q ks ih =>
    intro k hk
    unfold stepLeapfrogO
    split
    · exact hk
    · split
      · exact (Dict.mem_keys_set _ _ _ _).2 (.inr hk)
      · exact ih _ _ k ((Dict.mem_keys_set _ _ _ _).2 (.inr hk))

theorem lfCall_keys {V : Type} (A : Arith V) (p : ProgOver σ V) (lf : LFOver V) (s : σ) (y : EState V) (dt : Int) :
    ∀ k ∈ Dict.keys y, k ∈ Dict.keys (LFOver.call A p lf s y dt).2.2.1 := by
  intro k hk
  unfold LFOver.call
  split
  · dsimp only
    split
    · exact hk
    · split
      · exact hk
      · split
        · split <;> exact hk
        · split <;> exact stepLeapfrogO_keys A _ _ _ _ _ _ _ _ k hk
  · exact hk

theorem outPair_ok {q : String} {ix : String → Nat} {x : F} {r : Except Err (Dict (ElemArray F) × EState (ElemArray F))}
    (h : OutPair Eq (fun k v w => v = w ∧ (k = q → w.at' ix = x)) (fun _ v w => v = w) r r)
    {d : Dict (ElemArray F)} {new : EState (ElemArray F)} (hr : r = .ok (d, new)) :
    ∀ a, (q, Entry.da a) ∈ new → a.at' ix = x := by
  subst hr
  exact has_mem h.2

/-- **What absorbs stays (AdamsBashforth).**  An element such as NaN that is in a quantity of the state at
some point is there in the new state, whatever the components do, and whether or not the quantity is stepped. -/
theorem ab_absorbed {x : F} (hx : Absorbs E x) (p : ProgOver σ (ElemArray F)) (inProps outProps : PropDict)
    (inst : String) (tid : Bool) (ab : ABOver (ElemArray F)) (s : σ) {y : EState (ElemArray F)} {q : String}
    {ix : String → Nat} (hy : SetAt q ix x y) (dt : Int) {d : Dict (ElemArray F)} {new : EState (ElemArray F)}
    (h : (tsCallO (elemArith R E) inProps outProps inst tid (abCallO (elemArith R E) p) ab s y dt).2.2.2 = .ok (d, new)) :
    SetAt q ix x new := by
  have hr := has_refl hy.2
  obtain ⟨h1, h2, h3⟩ := ab_pair (absorbing_alike R hx q ix) (prog_self p q ix x) (abPair_self ab) (rfl : s = s) hr dt
  have hc := stepper_pair (absorbing_alike R hx q ix) _ inProps outProps inst tid dt
    (call := abCallO (elemArith R E) p) (call' := abCallO (elemArith R E) p) ⟨h1, h2, hr, h3⟩
  exact ⟨tsCallO_keys h q hy.1, outPair_ok hc.2.2.2 h⟩

/-- **What absorbs stays (SSPRungeKutta).** -/
theorem ssprk_absorbed {x : F} (hx : Absorbs E x) (p : ProgOver σ (ElemArray F)) (three : Bool)
    (inProps outProps : PropDict) (inst : String) (tid : Bool) (ab : ABOver (ElemArray F)) (s : σ)
    {y : EState (ElemArray F)} {q : String} {ix : String → Nat} (hy : SetAt q ix x y) (dt : Int)
    {d : Dict (ElemArray F)} {new : EState (ElemArray F)}
    (h : (tsCallO (elemArith R E) inProps outProps inst tid (sspCallO (elemArith R E) p three) ab s y dt).2.2.2
      = .ok (d, new)) :
    SetAt q ix x new := by
  have hr := has_refl hy.2
  obtain ⟨h1, h2, h3⟩ := ssprk_pair (absorbing_alike R hx q ix) (prog_self p q ix x) three (abPair_self ab) (rfl : s = s) hr dt
  have hc := stepper_pair (absorbing_alike R hx q ix) _ inProps outProps inst tid dt
    (call := sspCallO (elemArith R E) p three) (call' := sspCallO (elemArith R E) p three) ⟨h1, h2, hr, h3⟩
  exact ⟨tsCallO_keys h q hy.1, outPair_ok hc.2.2.2 h⟩

/-- **What absorbs stays (Leapfrog)**, if it is in the state that the stepper remembers as well (a fresh
Leapfrog remembers none); it is then in the state that the stepper remembers after the call. -/
theorem leapfrog_absorbed {x : F} (hx : Absorbs E x) (p : ProgOver σ (ElemArray F))
    (inProps outProps : PropDict) (inst : String) (tid : Bool) (lf : LFOver (ElemArray F)) (s : σ)
    {y : EState (ElemArray F)} {q : String} {ix : String → Nat} (hold : OldSetAt q ix x lf) (hy : SetAt q ix x y) (dt : Int)
    {d : Dict (ElemArray F)} {new : EState (ElemArray F)}
    (h : (tsCallO (elemArith R E) inProps outProps inst tid (LFOver.call (elemArith R E) p) lf s y dt).2.2.2
      = .ok (d, new)) :
    SetAt q ix x new ∧
    OldSetAt q ix x (tsCallO (elemArith R E) inProps outProps inst tid (LFOver.call (elemArith R E) p) lf s y dt).1 := by
  have hr := has_refl hy.2
  have hlf : LFPair Eq (fun k v w => v = w ∧ (k = q → w.at' ix = x)) lf lf := by
    refine ⟨rfl, rfl, rfl, ?_⟩
    cases ho : lf.old with
    | none => trivial
    | some o => exact has_refl (hold o ho)
  have hp := leapfrog_pair (absorbing_alike R hx q ix) (prog_self p q ix x) hlf (rfl : s = s) hr dt
  have hc := stepper_pair (absorbing_alike R hx q ix) _ inProps outProps inst tid dt
    (call := LFOver.call (elemArith R E) p) (call' := LFOver.call (elemArith R E) p) hp
  refine ⟨⟨tsCallO_keys h q (lfCall_keys _ _ _ _ _ _ q hy.1), outPair_ok hc.2.2.2 h⟩, ?_⟩
  intro o ho
  have h4 := hc.1.2.2.2
  rw [ho] at h4
  exact has_mem h4

/-- **Runs never lose it**: with any of the time steppers, whatever the components do, if what happens between the
calls leaves it where it is, the state after any number of steps has it. -/
theorem main_loops_absorb {x : F} (hx : Absorbs E x) (p : ProgOver σ (ElemArray F)) (inProps outProps : PropDict)
    (inst : String) (tid : Bool) (between : Dict (ElemArray F) → EState (ElemArray F) → EState (ElemArray F))
    {q : String} {ix : String → Nat} (hb : ∀ d y, SetAt q ix x y → SetAt q ix x (between d y)) (dt : Int) (n : Nat) (s : σ)
    {y : EState (ElemArray F)} (hy : SetAt q ix x y) :
    (∀ ab out, (runOver (tsCallO (elemArith R E) inProps outProps inst tid (abCallO (elemArith R E) p)) between dt n
        ab s y).2.2 = .ok out → SetAt q ix x out) ∧
    (∀ three ab out, (runOver (tsCallO (elemArith R E) inProps outProps inst tid (sspCallO (elemArith R E) p three)) between
        dt n ab s y).2.2 = .ok out → SetAt q ix x out) ∧
    (∀ lf, OldSetAt q ix x lf → ∀ out, (runOver (tsCallO (elemArith R E) inProps outProps inst tid
        (LFOver.call (elemArith R E) p)) between dt n lf s y).2.2 = .ok out → SetAt q ix x out) := by
  refine ⟨fun ab => ?_, fun three ab => ?_, fun lf => ?_⟩
  · induction n generalizing ab s y with
    | zero => intro out h; cases h; exact hy
    | succ n ih =>
      intro out h
      unfold runOver at h
      have hk := fun d new => ab_absorbed R E hx p inProps outProps inst tid ab s hy dt (d := d) (new := new)
      revert h hk
      generalize tsCallO (elemArith R E) inProps outProps inst tid (abCallO (elemArith R E) p) ab s y dt = r
      intro h hk
      obtain ⟨r1, r2, r3, r4⟩ := r
      cases r4 with
      | error e => cases h
      | ok o => exact ih _ (hb _ _ (hk o.1 o.2 rfl)) _ _ h
  · induction n generalizing ab s y with
    | zero => intro out h; cases h; exact hy
    | succ n ih =>
      intro out h
      unfold runOver at h
      have hk := fun d new => ssprk_absorbed R E hx p three inProps outProps inst tid ab s hy dt (d := d) (new := new)
      revert h hk
      generalize tsCallO (elemArith R E) inProps outProps inst tid (sspCallO (elemArith R E) p three) ab s y dt = r
      intro h hk
      obtain ⟨r1, r2, r3, r4⟩ := r
      cases r4 with
      | error e => cases h
      | ok o => exact ih _ (hb _ _ (hk o.1 o.2 rfl)) _ _ h
  · induction n generalizing lf s y with
    | zero => intro _ out h; cases h; exact hy
    | succ n ih =>
      intro hold out h
      unfold runOver at h
      have hk := fun d new => leapfrog_absorbed R E hx p inProps outProps inst tid lf s hold hy dt (d := d) (new := new)
      revert h hk
      generalize tsCallO (elemArith R E) inProps outProps inst tid (LFOver.call (elemArith R E) p) lf s y dt = r
      intro h hk
      obtain ⟨r1, r2, r3, r4⟩ := r
      cases r4 with
      | error e => cases h
      | ok o => exact ih _ (hb _ _ (hk o.1 o.2 rfl).1) _ (hk o.1 o.2 rfl).2 _ h

end

/-! ## The elements of the other files -/

/-- Rational elements with exact operations. -/
def exactElem : Elem Rat where
  add := (· + ·)
  sub := (· - ·)
  mulc c x := c * x
  divc c x := x / c * 1
  conv := PintUnit.convert

/-- A DataArray as an array of rational elements. -/
def ofDA (a : DataArray) : ElemArray Rat := { dims := a.dims, shape := a.arr.shape, get := a.arr.get, attrs := a.attrs }

theorem ofDA_binop (f : Rat → Rat → Rat) (a b : DataArray) :
    Exc.Rel (fun v r => v = ofDA r) (ElemArray.binop f (ofDA a) (ofDA b))
      (DataArray.binop f a b >>= fun r => .ok { r with attrs := a.attrs }) := by
  unfold ElemArray.binop DataArray.binop
  dsimp only
  by_cases h : ∀ d ∈ b.dims, d ∈ a.dims → b.len d = a.len d
  · rw [if_pos h, if_pos (show ∀ d ∈ (ofDA b).dims, d ∈ (ofDA a).dims → (ofDA b).len d = (ofDA a).len d from h)]
    rfl
  · rw [if_neg h, if_neg (show ¬ ∀ d ∈ (ofDA b).dims, d ∈ (ofDA a).dims → (ofDA b).len d = (ofDA a).len d from h)]
    rfl

theorem ofDA_toUnits (R : Registry) (a : DataArray) (u : String) :
    Exc.Rel (fun v r => v = ofDA r) (ElemArray.toUnits R exactElem (ofDA a) u) (a.toUnits R u) := by
  unfold ElemArray.toUnits ElemArray.dataArrayToUnits DataArray.toUnits DataArray.dataArrayToUnits
  show Exc.Rel _ (match a.attrs.get? "units" with | none => _ | some _ => _) _
  cases h : a.attrs.get? "units" with
  | none => rfl
  | some own =>
    have h' : (ofDA a).attrs.get? "units" = some own := h
    simp only [h']
    cases R.unit own with
    | error e => cases e <;> rfl
    | ok x =>
      cases R.unit u with
      | error e => cases e <;> rfl
      | ok y =>
        simp only [Exc.ok_bind]
        by_cases h1 : x.sameQty y = true
        · simp only [if_pos h1]; rfl
        · simp only [if_neg h1]
          by_cases h2 : x.dim = y.dim
          · simp only [if_pos h2]; rfl
          · simp only [if_neg h2]; rfl

/-- With exact rational elements, these arrays are the DataArrays of `Verif/Model/DataArray.lean`. -/
theorem exactElem_stand (R : Registry) :
    StandFor R (elemArith R exactElem) (fun _ v a => v = ofDA a) (fun _ v a => v = ofDA a) (fun v a => v = ofDA a) where
  attrsS h := by subst h; rfl
  attrsT h := by subst h; rfl
  container _ := rfl
  toUnitsS h u := by subst h; exact ofDA_toUnits R _ u
  toUnitsT h u := by subst h; exact ofDA_toUnits R _ u
  smulS h c := by subst h; rfl
  smulT h c := by subst h; rfl
  setAttrs h m := by subst h; rfl
  divide h c := by subst h; rfl
  addSS h h' := by subst h h'; exact ofDA_binop _ _ _
  addST h h' := by subst h h'; exact ofDA_binop _ _ _
  addTT h h' := by subst h h'; exact ofDA_binop _ _ _
  subSS h h' := by subst h h'; exact ofDA_binop _ _ _
  subTT h h' := by subst h h'; exact ofDA_binop _ _ _
  iadd {k v a w b} h h' := by
    subst h h'
    show Exc.Rel _ (if ∀ d ∈ b.dims, d ∈ a.dims then _ else _) (if ∀ d ∈ b.dims, d ∈ a.dims then _ else _)
    by_cases hc : ∀ d ∈ b.dims, d ∈ a.dims
    · rw [if_pos hc, if_pos hc]; exact ofDA_binop _ _ _
    · rw [if_neg hc, if_neg hc]; rfl
  diag h := h

/-! ## Non-vacuity: NaN in one of two cells -/

/-- Elements with a NaN (`none`). -/
def withNaN {F : Type} (E : Elem F) : Elem (Option F) where
  add x y := x.bind fun x => y.map (E.add x)
  sub x y := x.bind fun x => y.map (E.sub x)
  mulc c x := x.map (E.mulc c)
  divc c x := x.map (E.divc c)
  conv u v x := x.map (E.conv u v)

theorem nan_absorbs {F : Type} (E : Elem F) : Absorbs (withNaN E) none where
  addl _ := rfl
  addr y := by cases y <;> rfl
  subl _ := rfl
  subr y := by cases y <;> rfl
  mulc _ := rfl
  divc _ := rfl
  conv _ _ := rfl

/-- A component that works point by point: the tendency of `q` is a function of its value. -/
def pointwise {F σ : Type} (q : String) (f : F → F) (units : String) : ProgOver σ (ElemArray F) := fun s state _ =>
  (s, EState.da state q >>= fun a => .ok ([(q, { a.map f with attrs := [("units", units)] })], []))

theorem pointwise_keeps {F σ : Type} (B : (String → Nat) → Prop) (q : String) (f : F → F) (units : String) :
    KeepsRegion B Eq (pointwise (σ := σ) q f units) := by
  intro s s' y y' dt hz h
  refine ⟨hz, ?_⟩
  refine Exc.Rel.bind (PairRel.da h q) (fun a a' ha => ?_)
  exact ⟨List.Forall₂.cons ⟨rfl, agreeOff_map f _ ha⟩ List.Forall₂.nil, List.Forall₂.nil⟩

namespace Demo

/-- Temperatures of two cells, the second given by `b`. -/
def twoCells (b : Option Rat) : EState (ElemArray (Option Rat)) :=
  [("T", .da { dims := ["x"], shape := [2], get := fun i => if i = [0] then some 280 else b, attrs := [("units", "K")] })]

/-- Everything but the first cell. -/
def notFirst (ix : String → Nat) : Prop := ix "x" ≠ 0

theorem cells_agree (b b' : Option Rat) : StatesAgreeOff notFirst (twoCells b) (twoCells b') := by
  refine List.Forall₂.cons ⟨rfl, ⟨rfl, rfl, rfl, ?_⟩⟩ List.Forall₂.nil
  intro ix _ hB
  have h0 : ix "x" = 0 := by
    by_contra h
    exact hB h
  simp [ElemArray.at', h0]

/-- Cools by a hundredth of the value in a second. -/
def coolsAll : ProgOver Unit (ElemArray (Option Rat)) := pointwise "T" ((withNaN exactElem).mulc (-1 / 100)) "K s^-1"

/-- The value of a cell. -/
def cellOf (i : Nat) (y : EState (ElemArray (Option Rat))) : Option (Option Rat) :=
  match EState.da y "T" with
  | .ok a => some (a.at' (fun _ => i))
  | .error _ => none

/-- With a NaN in the second cell the first cell goes on as without, and the second stays NaN (third-order
Adams-Bashforth). -/
example :
    (∀ b, RunPair Eq Eq (ABPair fun _ => AgreeOff notFirst) (fun _ => AgreeOff notFirst)
      (runOver (tsCallO (elemArith reg (withNaN exactElem)) [] [] "" false (abCallO (elemArith reg (withNaN exactElem)) coolsAll))
        (fun _ y => y) 1000000 1000 { order := 3 } () (twoCells none))
      (runOver (tsCallO (elemArith reg (withNaN exactElem)) [] [] "" false (abCallO (elemArith reg (withNaN exactElem)) coolsAll))
        (fun _ y => y) 1000000 1000 { order := 3 } () (twoCells b))) ∧
    Exc.test (runOver (tsCallO (elemArith reg (withNaN exactElem)) [] [] "" false
      (abCallO (elemArith reg (withNaN exactElem)) coolsAll)) (fun _ y => y) 1000000 2 { order := 3 } () (twoCells none)).2.2
      (fun y => cellOf 0 y == some (some (137221 / 500)) && cellOf 1 y == some none) = true :=
  ⟨fun b => (main_loops_confined reg _ (pointwise_keeps notFirst _ _ _) [] [] "" false _ (fun _ _ _ _ _ h => h) _ _ rfl
      (cells_agree none b)).1 3,
   by decide +kernel⟩

/-- The NaN is there after any number of steps, with any component. -/
example (p : ProgOver Unit (ElemArray (Option Rat))) (n : Nat) (out : EState (ElemArray (Option Rat)))
    (h : (runOver (tsCallO (elemArith reg (withNaN exactElem)) [] [] "" false (LFOver.call (elemArith reg (withNaN exactElem))
      p)) (fun _ y => y) 1000000 n {} () (twoCells none)).2.2 = .ok out) : SetAt "T" (fun _ => 1) none out :=
  (main_loops_absorb reg _ (nan_absorbs exactElem) p [] [] "" false _ (fun _ _ h => h) _ n ()
    (show SetAt "T" (fun _ => 1) none (twoCells none) from ⟨List.mem_cons_self, fun a ha => by
      cases ha with
      | head => rfl
      | tail _ h => cases h⟩)).2.2 {} (fun o ho => by cases ho) out h

/-- Warms every cell at a constant rate. -/
def warmsAll : ProgOver Unit (ElemArray (Option Rat)) := pointwise "T" (fun _ => some 1) "K s^-1"

/-- **What Leapfrog remembers matters**: with `alpha=1`, a NaN that is put in the state between two calls is gone
from the state after the next one, if the components' tendencies do not have it. -/
theorem leapfrog_forgets : ¬ ∀ (lf : LFOver (ElemArray (Option Rat))) (y : EState (ElemArray (Option Rat))) d new,
    SetAt "T" (fun _ => 1) none y →
    (tsCallO (elemArith reg (withNaN exactElem)) [] [] "" false (LFOver.call (elemArith reg (withNaN exactElem)) warmsAll) lf ()
      y 1000000).2.2.2 = .ok (d, new) → SetAt "T" (fun _ => 1) none new := by
  intro h
  have ht : Exc.test (tsCallO (elemArith reg (withNaN exactElem)) [] [] "" false
      (LFOver.call (elemArith reg (withNaN exactElem)) warmsAll) { alpha := 1, old := some (twoCells (some 280)) } ()
      (twoCells none) 1000000).2.2.2 (fun r => cellOf 1 r.2 == some (some 282)) = true := by decide +kernel
  cases hr : (tsCallO (elemArith reg (withNaN exactElem)) [] [] "" false
      (LFOver.call (elemArith reg (withNaN exactElem)) warmsAll) { alpha := 1, old := some (twoCells (some 280)) } ()
      (twoCells none) 1000000).2.2.2 with
  | error e => rw [hr] at ht; cases ht
  | ok r =>
    rw [hr] at ht
    have hs := (h _ (twoCells none) r.1 r.2 ⟨List.mem_cons_self, fun a ha => by
      cases ha with
      | head => rfl
      | tail _ h => cases h⟩ hr).2
    have hc : cellOf 1 r.2 = some (some 282) := by simpa [Exc.test] using ht
    unfold cellOf EState.da at hc
    cases hg : Dict.get? r.2 "T" with
    | none => rw [hg] at hc; cases hc
    | some v =>
      rw [hg] at hc
      cases v with
      | time t => cases hc
      | da a =>
        have hm := hs a (Dict.mem_of_get? hg)
        simp only [hm] at hc
        cases hc

end Demo
end Verif

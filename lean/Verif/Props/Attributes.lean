import Verif.Spec.Attributes
import Verif.Spec.Demo
/-!
# C95: attributes of wrapped components
-/

namespace Verif

/-! ## Lookups on nests of wrappers -/

theorem getAttr_succ (n : Nat) (x : PyOb) (item : String) :
    getAttr (n + 1) x item = orElse' (findAttr (getAttr n) x item) (getattrHook (getAttr n) x item) := by
  unfold orElse' getAttr
  cases findAttr (getAttr n) x item with
  | ok v => rfl
  | error e => cases e <;> rfl

theorem orElse_ok (v : PyOb) (b : Except Err PyOb) : orElse' (.ok v) b = .ok v := rfl

theorem orElse_attr (b : Except Err PyOb) : orElse' (.error .attributeError) b = b := rfl

theorem orElse_self (a : Except Err PyOb) : orElse' a a = a := by
  unfold orElse'; split <;> rfl

theorem ownAttr_layer (c : PyOb) (l : Layer) (item : String) :
    ownAttr ((slotOf l.kind, c) :: l.inst) l.cls item =
      if item = slotOf l.kind then .ok c else match l.own item with
        | some v => .ok v
        | none => .error .attributeError := by
  unfold ownAttr Layer.own
  by_cases h : slotOf l.kind = item
  · subst h; simp [Dict.get?]
  · rw [if_neg (fun e => h e.symm), Dict.get?, if_neg h]
    cases Dict.get? l.inst item with
    | some v => rfl
    | none => simp only [Option.none_or]; cases Dict.get? l.cls item <;> rfl

theorem findAttr_plain (look : PyOb → String → Except Err PyOb) (k : WrapperKind) (inst cls : List (String × PyOb))
    (item : String) (h : ¬ (k = .differencing ∧ item ∈ computed)) :
    findAttr look (.wrap k inst cls) item = ownAttr inst cls item := by
  cases k with
  | scaling => rfl
  | frequency => rfl
  | differencing =>
    have h : item ∉ computed := fun hi => h ⟨rfl, hi⟩
    simp only [computed, List.mem_cons, List.not_mem_nil, or_false, not_or] at h
    unfold findAttr
    simp only
    rw [if_neg (not_or.2 ⟨h.1, h.2.1⟩), if_neg h.2.2.1, if_neg h.2.2.2]

theorem slot_not_computed (k : WrapperKind) : slotOf k ∉ computed := by
  cases k <;> decide

theorem getAttr_slot {n : Nat} (hn : 1 ≤ n) (c : PyOb) (l : Layer) :
    getAttr n (.wrap l.kind ((slotOf l.kind, c) :: l.inst) l.cls) (slotOf l.kind) = .ok c := by
  obtain ⟨n, rfl⟩ : ∃ m, n = m + 1 := ⟨n - 1, by omega⟩
  rw [getAttr_succ, findAttr_plain _ _ _ _ _ (fun h => slot_not_computed l.kind h.2), ownAttr_layer, if_pos rfl]
  rfl

theorem hook_pass {n : Nat} (hn : 1 ≤ n) (c : PyOb) (l : Layer) (item : String)
    (h : ¬ (l.kind = .differencing ∧ (item = "outputs" ∨ item = "output_properties"))) :
    getattrHook (getAttr n) (.wrap l.kind ((slotOf l.kind, c) :: l.inst) l.cls) item = getAttr n c item := by
  unfold getattrHook
  simp only
  rw [if_neg h, getAttr_slot hn, Exc.ok_bind]

/-- **C95.**  Whatever is wrapped in whatever wrappers, in any order and to any depth,
`getattr` gives what is expected, given room for a number of nested lookups that grows
with the depth. -/
theorem nest_lookup (f : String → Except Err PyOb) (ls : List Layer) :
    ∀ (item : String) (n : Nat), 2 * ls.length + 1 ≤ n → getAttr n (nest f ls) item = expected f ls item := by
  induction ls with
  | nil =>
    intro item n hn
    obtain ⟨n, rfl⟩ : ∃ m, n = m + 1 := ⟨n - 1, by omega⟩
    rw [getAttr_succ]
    unfold nest expected findAttr getattrHook
    simp only
    unfold orElse'
    split
    · rename_i h; rw [h]
    · rfl
  | cons l ls ih =>
    have plain : ∀ item, ¬ (l.kind = .differencing ∧ item ∈ computed) → ∀ n, 2 * ls.length + 2 ≤ n →
        getAttr n (nest f (l :: ls)) item = ofLayer l (nest f ls) (expected f ls) item := by
      intro item hc n hn
      obtain ⟨n, rfl⟩ : ∃ m, n = m + 1 := ⟨n - 1, by omega⟩
      have hx : nest f (l :: ls) = .wrap l.kind ((slotOf l.kind, nest f ls) :: l.inst) l.cls := rfl
      unfold ofLayer
      rw [hx, getAttr_succ, findAttr_plain _ _ _ _ _ hc, ownAttr_layer]
      by_cases hs : item = slotOf l.kind
      · rw [if_pos hs, if_pos hs]; rfl
      · rw [if_neg hs, if_neg hs]
        cases l.own item with
        | some v => rfl
        | none =>
          simp only [orElse_attr]
          by_cases hb : l.kind = .differencing ∧ (item = "outputs" ∨ item = "output_properties")
          · unfold getattrHook; simp only; rw [if_pos hb, if_pos hb]
          · rw [if_neg hb, hook_pass (by omega) _ _ _ hb, ih item n (by omega)]
    intro item n hn
    unfold expected
    by_cases hc : l.kind = .differencing ∧ item ∈ computed
    · rw [if_pos hc]
      obtain ⟨hk, hi⟩ := hc
      have hlen : (l :: ls).length = ls.length + 1 := rfl
      obtain ⟨n, rfl⟩ : ∃ m, n = m + 1 := ⟨n - 1, by omega⟩
      have hb : ¬ (l.kind = .differencing ∧ (item = "outputs" ∨ item = "output_properties")) := by
        rintro ⟨_, rfl | rfl⟩ <;> revert hi <;> decide
      have hhook : getattrHook (getAttr n) (nest f (l :: ls)) item = expected f ls item := by
        have hx : nest f (l :: ls) = .wrap l.kind ((slotOf l.kind, nest f ls) :: l.inst) l.cls := rfl
        rw [hx, hook_pass (by omega) _ _ _ hb, ih item n (by omega)]
      have hslot : getAttr n (.wrap .differencing (("_implicit", nest f ls) :: l.inst) l.cls) "_implicit" =
          .ok (nest f ls) := by
        have := getAttr_slot (n := n) (by omega) (nest f ls) l
        rw [hk] at this
        exact this
      rw [getAttr_succ, hhook]
      have hx : nest f (l :: ls) = .wrap .differencing (("_implicit", nest f ls) :: l.inst) l.cls := by
        have hx : nest f (l :: ls) = .wrap l.kind ((slotOf l.kind, nest f ls) :: l.inst) l.cls := rfl
        rw [hx, hk]; rfl
      by_cases h1 : item = "input_properties" ∨ item = "diagnostic_properties"
      · have hf : findAttr (getAttr n) (nest f (l :: ls)) item = expected f ls item := by
          rw [hx]; unfold findAttr; simp only
          rw [if_pos h1, hslot, Exc.ok_bind, ih item n (by omega)]
        rw [hf, orElse_self]
        rcases h1 with rfl | rfl
        · rw [if_neg (by decide), if_neg (by decide)]
        · rw [if_neg (by decide), if_neg (by decide)]
      · by_cases h2 : item = "tendency_properties"
        · have hf : findAttr (getAttr n) (nest f (l :: ls)) item =
              (expected f ls "output_properties" >>= tendenciesOf) := by
            rw [hx]; unfold findAttr; simp only
            rw [if_neg h1, if_pos h2, hslot, Exc.ok_bind, ih _ n (by omega)]
          rw [hf, if_pos h2]
        · have h3 : item = "tendencies_in_diagnostics" := by
            simp only [computed, List.mem_cons, List.not_mem_nil, or_false] at hi
            rcases hi with h | h | h | h
            · exact absurd (Or.inl h) h1
            · exact absurd (Or.inr h) h1
            · exact absurd h h2
            · exact h
          have hf : findAttr (getAttr n) (nest f (l :: ls)) item =
              ofLayer l (nest f ls) (expected f ls) "_tendencies_in_diagnostics" := by
            rw [← plain "_tendencies_in_diagnostics" (fun h => absurd h.2 (by decide)) n (by omega)]
            rw [hx]
            have hd : ∀ look x, findAttr look (.wrap .differencing x l.cls) item =
                look (.wrap .differencing x l.cls) "_tendencies_in_diagnostics" := by
              intro look x
              unfold findAttr
              simp only
              rw [if_neg h1, if_neg h2, if_pos h3]
            exact hd _ _
          rw [hf, if_neg h2, if_pos h3]
    · rw [if_neg hc]
      exact plain item hc n (by simp at hn; omega)

theorem nest_settles (f : String → Except Err PyOb) (ls : List Layer) (item : String) :
    Settles (nest f ls) item (expected f ls item) := ⟨_, nest_lookup f ls item⟩

theorem settles_unique {x : PyOb} {item : String} {r r' : Except Err PyOb} (h : Settles x item r)
    (h' : Settles x item r') : r = r' := by
  obtain ⟨n, h⟩ := h
  obtain ⟨m, h'⟩ := h'
  rw [← h (max n m) (Nat.le_max_left _ _), ← h' (max n m) (Nat.le_max_right _ _)]

theorem settles_nest_iff {f : String → Except Err PyOb} {ls : List Layer} {item : String} {r : Except Err PyOb} :
    Settles (nest f ls) item r ↔ expected f ls item = r :=
  ⟨fun h => settles_unique (nest_settles f ls item) h, fun h => h ▸ nest_settles f ls item⟩

/-! ## What this means for single attributes -/

/-- The layer neither has `item` nor computes or hides it. -/
def Layer.passes (l : Layer) (item : String) : Prop :=
  item ≠ slotOf l.kind ∧ l.own item = none ∧
    (l.kind = .differencing → item ∉ computed ∧ item ≠ "outputs" ∧ item ≠ "output_properties")

theorem expected_pass {f : String → Except Err PyOb} {l : Layer} {ls : List Layer} {item : String}
    (h : l.passes item) : expected f (l :: ls) item = expected f ls item := by
  obtain ⟨h1, h2, h3⟩ := h
  conv => lhs; unfold expected
  rw [if_neg (fun h => (h3 h.1).1 h.2)]
  unfold ofLayer
  rw [if_neg h1, h2]
  simp only
  rw [if_neg (fun h => h.2.elim (h3 h.1).2.1 (h3 h.1).2.2)]

/-- **C95, passed on.**  An attribute no wrapper has itself is that of the component,
including the exception if reading it raises; in particular a missing one is an
AttributeError. -/
theorem attribute_passed_on (f : String → Except Err PyOb) (ls : List Layer) (item : String)
    (h : ∀ l ∈ ls, l.passes item) : Settles (nest f ls) item (f item) := by
  rw [settles_nest_iff]
  induction ls with
  | nil => rfl
  | cons l ls ih => rw [expected_pass (h l (by simp)), ih (fun l' hl' => h l' (by simp [hl']))]

/-- **C95, own attributes first.** -/
theorem own_attribute (f : String → Except Err PyOb) (pre : List Layer) (l : Layer) (post : List Layer) (item : String)
    (h : ∀ l ∈ pre, l.passes item) (v : PyOb) (hv : l.own item = some v) (hs : item ≠ slotOf l.kind)
    (hc : l.kind = .differencing → item ∉ computed) : Settles (nest f (pre ++ l :: post)) item (.ok v) := by
  rw [settles_nest_iff]
  induction pre with
  | nil =>
    rw [List.nil_append]
    unfold expected
    rw [if_neg (fun h => hc h.1 h.2)]
    unfold ofLayer
    rw [if_neg hs, hv]
  | cons a pre ih => rw [List.cons_append, expected_pass (h a (by simp)), ih (fun l' hl' => h l' (by simp [hl']))]

/-- **C95, outputs hidden.**  Behind a TimeDifferencingWrapper nothing has
`output_properties`, however many wrappers are around it and inside it. -/
theorem outputs_hidden (f : String → Except Err PyOb) (pre post : List Layer) (item : String)
    (hi : item = "outputs" ∨ item = "output_properties") (h : ∀ l ∈ pre, l.kind ≠ .differencing ∧ l.own item = none) :
    Settles (nest f (pre ++ differencingLayer :: post)) item (.error .attributeError) := by
  rw [settles_nest_iff]
  induction pre with
  | nil => rcases hi with rfl | rfl <;> rfl
  | cons a pre ih =>
    have ha := h a (by simp)
    rw [List.cons_append, expected_pass ⟨?_, ha.2, fun hk => absurd hk ha.1⟩, ih (fun l' hl' => h l' (by simp [hl']))]
    cases hk : a.kind <;> rcases hi with rfl | rfl <;> decide

/-- **C95, differenced.**  Inputs and diagnostics of a TimeDifferencingWrapper are those
of what it wraps, and its tendencies the outputs with units per second. -/
theorem differencing_properties (f : String → Except Err PyOb) (ls : List Layer) :
    Settles (nest f (differencingLayer :: ls)) "input_properties" (expected f ls "input_properties") ∧
    Settles (nest f (differencingLayer :: ls)) "diagnostic_properties" (expected f ls "diagnostic_properties") ∧
    ∀ d, expected f ls "output_properties" = .ok (.dict d) →
      Settles (nest f (differencingLayer :: ls)) "tendency_properties" (differencingProps d >>= fun p => .ok (.dict p)) := by
  refine ⟨settles_nest_iff.2 rfl, settles_nest_iff.2 rfl, fun d hd => settles_nest_iff.2 ?_⟩
  have h : expected f (differencingLayer :: ls) "tendency_properties" =
      orElse' (expected f ls "output_properties" >>= tendenciesOf) (expected f ls "tendency_properties") := rfl
  rw [h, hd, Exc.ok_bind]
  have ht : tendenciesOf (.dict d) = (differencingProps d >>= fun p => .ok (.dict p)) := rfl
  rw [ht]
  cases hp : differencingProps d with
  | ok p => rfl
  | error e =>
    have : e = .keyError := by
      revert hp
      unfold differencingProps
      clear h hd ht
      induction d with
      | nil => intro hp; cases hp
      | cons kv d ih =>
        rw [List.mapM_cons]
        intro hp
        cases hu : kv.2.units with
        | none => rw [hu] at hp; injection hp with hp; exact hp.symm
        | some u =>
          rw [hu] at hp
          rcases Exc.bind_error_iff.1 hp with h | ⟨v, _, h⟩
          · cases h
          · rcases Exc.bind_error_iff.1 h with h | ⟨w, _, h⟩
            · exact ih h
            · cases h
    subst this
    rfl

/-! ## Where the claim fails -/

/-- **C95, not a Stepper.**  The constructor of TimeDifferencingWrapper takes anything;
around something without `output_properties` it does not miss them, but presents the
`tendency_properties` of the wrapped object as its own. -/
theorem differencing_of_no_stepper (f : String → Except Err PyOb) (ls : List Layer)
    (h : expected f ls "output_properties" = .error .attributeError) :
    Settles (nest f (differencingLayer :: ls)) "tendency_properties" (expected f ls "tendency_properties") := by
  refine settles_nest_iff.2 ?_
  have he : expected f (differencingLayer :: ls) "tendency_properties" =
      orElse' (expected f ls "output_properties" >>= tendenciesOf) (expected f ls "tendency_properties") := rfl
  rw [he, h]
  rfl

/-- **C95, the name is lost.**  `name` of a TimeDifferencingWrapper is None and
`uses_tracers` False, whatever the wrapped Stepper has: class attributes of
ImplicitTendencyComponent are found first. -/
theorem differencing_name (f : String → Except Err PyOb) (ls : List Layer) :
    Settles (nest f (differencingLayer :: ls)) "name" (.ok (.other "None")) ∧
    Settles (nest f (differencingLayer :: ls)) "uses_tracers" (.ok (.other "False")) :=
  ⟨settles_nest_iff.2 rfl, settles_nest_iff.2 rfl⟩

/-- **C95, before `__init__`.**  A wrapper that has not got its component yet answers no
lookup of an attribute it lacks, whatever the recursion limit: `__getattr__` looks for
the component, which calls `__getattr__`. -/
theorem bare_wrapper (k : WrapperKind) (cls : List (String × PyOb)) (hs : Dict.get? cls (slotOf k) = none)
    (item : String) (hi : Dict.get? cls item = none)
    (hk : k = .differencing → item ∉ computed ∧ item ≠ "outputs" ∧ item ≠ "output_properties") (n : Nat) :
    getAttr n (.wrap k [] cls) item = .error .runtimeError := by
  have own : ∀ a, Dict.get? cls a = none → ownAttr [] cls a = .error .attributeError := by
    intro a ha
    unfold ownAttr
    simp only [Dict.get?, ha]
  have slot : ∀ n, getAttr n (.wrap k [] cls) (slotOf k) = .error .runtimeError := by
    intro n
    induction n with
    | zero => rfl
    | succ n ih =>
      rw [getAttr_succ, findAttr_plain _ _ _ _ _ (fun h => slot_not_computed k h.2), own _ hs, orElse_attr]
      unfold getattrHook
      simp only
      rw [if_neg (by cases k <;> decide), ih]
      rfl
  cases n with
  | zero => rfl
  | succ n =>
    rw [getAttr_succ, findAttr_plain _ _ _ _ _ (fun h => (hk h.1).1 h.2), own _ hi, orElse_attr]
    unfold getattrHook
    simp only
    rw [if_neg (fun h => h.2.elim (hk h.1).2.1 (hk h.1).2.2), slot]
    rfl

/-- **C95, copies.**  No wrapper can be copied or unpickled: the new instance is asked
for `__setstate__` before it has its component. -/
theorem wrapper_not_copied (n : Nat) (k : WrapperKind) (inst cls : List (String × PyOb))
    (hs : Dict.get? cls (slotOf k) = none) (hi : Dict.get? cls "__setstate__" = none) :
    (∀ y, copyOb n (.wrap k inst cls) ≠ .ok y) ∧
    (noneFound n (.wrap k inst cls) reduceNames = .ok () → copyOb n (.wrap k inst cls) = .error .runtimeError) := by
  have hb : hasAttr n (.wrap k [] cls) "__setstate__" = .error .runtimeError := by
    unfold hasAttr
    rw [bare_wrapper k cls hs _ hi (fun _ => by decide) n]
  have hc : copyOb n (.wrap k inst cls) =
      (noneFound n (.wrap k inst cls) reduceNames >>= fun _ => .error .runtimeError) := by
    unfold copyOb
    simp only [hb]
    rfl
  constructor
  · intro y h
    rw [hc] at h
    obtain ⟨_, _, h⟩ := Exc.bind_ok_iff.1 h
    cases h
  · intro h
    rw [hc, h]
    rfl

/-! ## `isinstance` -/

/-- **C95, `isinstance`.**  What the model of `isinstance` assumes of the wrappers
(C61, C62) is what lookups give. -/
theorem scaling_seen_as (f : String → Except Err PyOb) (ls : List Layer) (o : Obj) (h : SeenAs (nest f ls) o)
    (i d ou t : PyOb) : SeenAs (nest f (scalingLayer i d ou t :: ls)) (scalingObj o) := by
  intro a ha hc
  have hp : (scalingLayer i d ou t).passes a := by
    revert hc
    have : ∀ a ∈ checkAttributes, a ≠ "__call__" → (a ≠ "_component" ∧ "_input_scale_factors" ≠ a ∧
        "_diagnostic_scale_factors" ≠ a ∧ "_output_scale_factors" ≠ a ∧ "_tendency_scale_factors" ≠ a ∧
        "_ensure_fields_have_properties" ≠ a ∧ "__call__" ≠ a) := by decide
    intro hc
    obtain ⟨h1, h2, h3, h4, h5, h6, h7⟩ := this a ha hc
    refine ⟨h1, ?_, fun hk => by cases hk⟩
    simp [Layer.own, scalingLayer, Dict.get?, h2, h3, h4, h5, h6, h7]
  have ho : a ∈ (scalingObj o).attrs ↔ a ∈ o.attrs := by
    have : ∀ a ∈ checkAttributes, a ∉ ["_component", "_input_scale_factors", "_diagnostic_scale_factors",
      "_output_scale_factors", "_tendency_scale_factors", "_ensure_fields_have_properties"] := by decide
    unfold scalingObj wrapObj
    simp only [List.mem_append]
    exact ⟨fun h => h.resolve_left (this a ha), Or.inr⟩
  rw [ho]
  simp only [settles_nest_iff, expected_pass hp]
  simpa only [settles_nest_iff] using h a ha hc

theorem update_seen_as (f : String → Except Err PyOb) (ls : List Layer) (o : Obj) (h : SeenAs (nest f ls) o)
    (delta : String) : SeenAs (nest f (updateLayer delta :: ls)) (updateObj o) := by
  intro a ha hc
  have hp : (updateLayer delta).passes a := by
    have : ∀ a ∈ checkAttributes, a ≠ "__call__" → (a ≠ "component" ∧ "_update_timedelta" ≠ a ∧
        "_cached_output" ≠ a ∧ "_last_update_time" ≠ a ∧ "__call__" ≠ a) := by decide
    obtain ⟨h1, h2, h3, h4, h5⟩ := this a ha hc
    refine ⟨h1, ?_, fun hk => by cases hk⟩
    simp [Layer.own, updateLayer, Dict.get?, h2, h3, h4, h5]
  have ho : a ∈ (updateObj o).attrs ↔ a ∈ o.attrs := by
    have : ∀ a ∈ checkAttributes, a ∉ ["component", "_update_timedelta", "_cached_output", "_last_update_time"] := by
      decide
    unfold updateObj wrapObj
    simp only [List.mem_append]
    exact ⟨fun h => h.resolve_left (this a ha), Or.inr⟩
  rw [ho]
  simp only [settles_nest_iff, expected_pass hp]
  simpa only [settles_nest_iff] using h a ha hc

theorem differencing_seen_as (f : String → Except Err PyOb) (ls : List Layer) (o : Obj) (h : SeenAs (nest f ls) o)
    (hin : "input_properties" ∈ o.attrs) (hdiag : "diagnostic_properties" ∈ o.attrs)
    (htid : "tendencies_in_diagnostics" ∈ o.attrs) (d : PropDict)
    (hout : expected f ls "output_properties" = .ok (.dict d)) (hunits : ∀ kv ∈ d, kv.2.units.isSome = true)
    (hpriv : ∀ e, expected f ls "_tendencies_in_diagnostics" = .error e → e = .attributeError) :
    SeenAs (nest f (differencingLayer :: ls)) (differencingObj o) := by
  have get : ∀ a ∈ checkAttributes, a ≠ "__call__" → a ∈ o.attrs → ∃ v, expected f ls a = .ok v := by
    intro a ha hc ho
    obtain ⟨v, hv⟩ := (h a ha hc).1 ho
    exact ⟨v, settles_nest_iff.1 hv⟩
  have yes : ∀ a v, expected f (differencingLayer :: ls) a = .ok v → a ∈ (differencingObj o).attrs →
      (a ∈ (differencingObj o).attrs → ∃ v, Settles (nest f (differencingLayer :: ls)) a (.ok v)) ∧
      (a ∉ (differencingObj o).attrs → Settles (nest f (differencingLayer :: ls)) a (.error .attributeError)) :=
    fun a v hv ha => ⟨fun _ => ⟨v, settles_nest_iff.2 hv⟩, fun hn => absurd ha hn⟩
  have req : ∀ a ∈ requiredAttributes .implicit, a ∈ (differencingObj o).attrs := by
    intro a ha
    unfold differencingObj
    simp only [List.cons_append, List.mem_cons, List.mem_append]
    exact Or.inr (Or.inl ha)
  intro a ha hc
  simp only [checkAttributes, List.mem_cons, List.not_mem_nil, or_false] at ha
  rcases ha with rfl | rfl | rfl | rfl | rfl | rfl | rfl | rfl
  · obtain ⟨v, hv⟩ := get _ (by decide) (by decide) hin
    exact yes _ v hv (req _ (by decide))
  · have hp : ∃ p, differencingProps d = .ok p := by
      unfold differencingProps
      clear hout
      induction d with
      | nil => exact ⟨[], rfl⟩
      | cons kv d ih =>
        obtain ⟨p, hp⟩ := ih (fun kv hkv => hunits kv (by simp [hkv]))
        obtain ⟨u, hu⟩ := Option.isSome_iff_exists.1 (hunits kv (by simp))
        rw [List.mapM_cons, hu, hp]
        exact ⟨_, rfl⟩
    obtain ⟨p, hp⟩ := hp
    have := settles_nest_iff.1 ((differencing_properties f ls).2.2 d hout)
    rw [hp] at this
    exact yes _ _ this (req _ (by decide))
  · obtain ⟨v, hv⟩ := get _ (by decide) (by decide) hdiag
    exact yes _ v hv (req _ (by decide))
  · refine ⟨fun hm => absurd hm ?_, fun _ => outputs_hidden f [] ls _ (Or.inr rfl) (by simp)⟩
    unfold differencingObj
    simp only [List.cons_append, List.mem_cons, List.mem_append, List.mem_filter]
    rintro (h | h | h)
    · revert h; decide
    · revert h; decide
    · exact absurd h.2 (by decide)
  · exact absurd rfl hc
  · exact yes _ (.other "method") rfl (req _ (by decide))
  · have he : expected f (differencingLayer :: ls) "tendencies_in_diagnostics" =
        orElse' (expected f ls "_tendencies_in_diagnostics") (expected f ls "tendencies_in_diagnostics") := rfl
    obtain ⟨v, hv⟩ := get _ (by decide) (by decide) htid
    cases hq : expected f ls "_tendencies_in_diagnostics" with
    | ok w => rw [hq] at he; exact yes _ w he (req _ (by decide))
    | error e =>
      rw [hq, hpriv e hq, hv] at he
      exact yes _ v he (req _ (by decide))
  · exact yes _ (.other "None") rfl (req _ (by decide))

/-- The objects the constructors make are nests of these layers. -/
theorem wrappers_are_layers (f : String → Except Err PyOb) (ls : List Layer) (i d o t : PyOb) (delta : String) :
    scalingOb (nest f ls) i d o t = nest f (scalingLayer i d o t :: ls) ∧
    updateOb (nest f ls) delta = nest f (updateLayer delta :: ls) ∧
    differencingOb (nest f ls) = nest f (differencingLayer :: ls) := ⟨rfl, rfl, rfl⟩

/-! ## Examples -/

namespace Demo

/-- A Stepper with one output, a name and a method of its own -/
def heaterAttr (a : String) : Except Err PyOb :=
  if a = "input_properties" then .ok (.dict [])
  else if a = "diagnostic_properties" then .ok (.dict [])
  else if a = "output_properties" then .ok (.dict [("T", { dims := some ["z"], units := some "K" })])
  else if a = "tendencies_in_diagnostics" then .ok (.other "False")
  else if a = "name" then .ok (.other "heater")
  else if a = "array_call" then .ok (.other "method")
  else if a = "describe" then .ok (.other "I heat")
  else .error .attributeError

/-- An UpdateFrequencyWrapper around a TimeDifferencingWrapper around a ScalingWrapper
around the Stepper -/
def heaterNest : List Layer :=
  [updateLayer "1 h", differencingLayer, scalingLayer (.other "{}") (.other "{}") (.other "{}") (.other "{}")]

def text : PyOb → String
  | .other s => s
  | .dict d => String.intercalate ", " (d.map fun kv => kv.1 ++ " " ++ kv.2.units.getD "?")
  | _ => "object"

def asked (a : String) : Option String :=
  match getAttr 7 (nest heaterAttr heaterNest) a with
  | .ok v => some (text v)
  | .error _ => none

end Demo

/-- C95: what a nest of three wrappers of all kinds answers. -/
example : Demo.asked "describe" = some "I heat" ∧ Demo.asked "tendency_properties" = some "T K s^-1" ∧
    Demo.asked "output_properties" = none ∧ Demo.asked "name" = some "None" ∧
    Demo.asked "_update_timedelta" = some "1 h" ∧ Demo.asked "_output_scale_factors" = some "{}" ∧
    Demo.asked "prepend_tracers" = none := by
  refine ⟨?_, ?_, ?_, ?_, ?_, ?_, ?_⟩ <;> decide +kernel

/-- C95: hypotheses of `attribute_passed_on` met. -/
example : ∀ l ∈ Demo.heaterNest, l.passes "describe" := by
  intro l hl
  simp only [Demo.heaterNest, List.mem_cons, List.not_mem_nil, or_false] at hl
  rcases hl with rfl | rfl | rfl
  · exact ⟨by decide, rfl, fun h => by cases h⟩
  · exact ⟨by decide, rfl, fun _ => by decide⟩
  · exact ⟨by decide, rfl, fun h => by cases h⟩

/-- The Stepper in a ScalingWrapper -/
def Demo.scaledHeater : PyOb :=
  scalingOb (.comp Demo.heaterAttr) (.other "{}") (.other "{}") (.other "{}") (.other "{}")

/-- C95: hypotheses of `wrapper_not_copied` met: nothing tells Python how to copy the
wrapper. -/
example : noneFound 7 Demo.scaledHeater reduceNames = .ok () ∧ copyOb 7 Demo.scaledHeater = .error .runtimeError ∧
    copyOb 7 (.comp Demo.heaterAttr) = .ok (.comp Demo.heaterAttr) :=
  ⟨rfl, (wrapper_not_copied 7 .scaling _ _ rfl rfl).2 rfl, rfl⟩

/-- C95: hypotheses of `differencing_seen_as` met. -/
example : SeenAs (nest Demo.heaterAttr []) ⟨["input_properties", "diagnostic_properties", "output_properties",
      "tendencies_in_diagnostics", "name", "array_call"], [.stepper], some wrapperCall⟩ ∧
    expected Demo.heaterAttr [] "output_properties" = .ok (.dict [("T", { dims := some ["z"], units := some "K" })]) := by
  refine ⟨?_, rfl⟩
  intro a ha hc
  simp only [checkAttributes, List.mem_cons, List.not_mem_nil, or_false] at ha
  rcases ha with rfl | rfl | rfl | rfl | rfl | rfl | rfl | rfl
  · exact ⟨fun _ => ⟨_, settles_nest_iff.2 rfl⟩, fun h => absurd (by decide) h⟩
  · exact ⟨fun h => absurd h (by decide), fun _ => settles_nest_iff.2 rfl⟩
  · exact ⟨fun _ => ⟨_, settles_nest_iff.2 rfl⟩, fun h => absurd (by decide) h⟩
  · exact ⟨fun _ => ⟨_, settles_nest_iff.2 rfl⟩, fun h => absurd (by decide) h⟩
  · exact absurd rfl hc
  · exact ⟨fun _ => ⟨_, settles_nest_iff.2 rfl⟩, fun h => absurd (by decide) h⟩
  · exact ⟨fun _ => ⟨_, settles_nest_iff.2 rfl⟩, fun h => absurd (by decide) h⟩
  · exact ⟨fun _ => ⟨_, settles_nest_iff.2 rfl⟩, fun h => absurd (by decide) h⟩

end Verif

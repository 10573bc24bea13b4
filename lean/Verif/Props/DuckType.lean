import Verif.Model.DuckType
import Mathlib.Data.List.Nodup
import Mathlib.Tactic.Tauto
/-!
# C20: which objects count as which kind of component
-/

namespace Verif

/-- Independent meaning of "`timestep` is an optional argument with default None":
the argument list splits into arguments without and with default, and `timestep`
is one of the latter, with default `None`. -/
def TimestepOptional (s : ArgSpec) : Prop :=
  ∃ pre post : List String, s.args = pre ++ post ∧ post.length = s.defaultsNone.length ∧
    ("timestep", true) ∈ post.zip s.defaultsNone

/-- A call signature Python accepts: no argument twice, not more defaults than arguments. -/
def ArgSpec.WF (s : ArgSpec) : Prop := s.args.Nodup ∧ s.defaultsNone.length ≤ s.args.length

theorem getD_of_lt (l : List String) (i : Nat) (h : i < l.length) : l.getD i "" = l[i] := by
  simp [List.getD_eq_getElem?_getD, h]

theorem kwargLoop_get? (args : List String) (bs : List Bool) (i : Nat) (d : Dict Bool) (q : String)
    (hn : args.Nodup) (hl : i + bs.length ≤ args.length) :
    (kwargLoop args i bs d).get? q =
      match (List.range bs.length).find? (fun j => args.getD (args.length - 1 - (i + j)) "" = q) with
      | some j => bs[j]?
      | none => d.get? q := by
  induction bs generalizing i d with
  | nil => rfl
  | cons b bs ih =>
    unfold kwargLoop
    simp only [List.length_cons] at hl
    rw [ih (i + 1) _ (by omega)]
    rw [List.length_cons, List.range_succ_eq_map, List.find?_cons]
    simp only [Nat.add_zero, List.find?_map]
    by_cases h0 : args.getD (args.length - 1 - i) "" = q
    · simp only [h0, decide_true]
      have : (List.range bs.length).find?
          (fun j => decide (args.getD (args.length - 1 - (i + 1 + j)) "" = q)) = none := by
        rw [List.find?_eq_none]
        intro j hj hc
        rw [List.mem_range] at hj
        have hc := of_decide_eq_true hc
        rw [← h0] at hc
        rw [getD_of_lt _ _ (by omega), getD_of_lt _ _ (by omega)] at hc
        have := (List.Nodup.getElem_inj_iff hn).1 hc
        omega
      rw [this]
      simp [Dict.get?_set_self]
    · simp only [h0, decide_false]
      have hcomp : ((fun j => decide (args.getD (args.length - 1 - (i + j)) "" = q)) ∘ Nat.succ) =
          (fun j => decide (args.getD (args.length - 1 - (i + 1 + j)) "" = q)) := by
        funext j
        simp only [Function.comp_apply]
        rw [show i + Nat.succ j = i + 1 + j from by omega]
      rw [hcomp]
      cases (List.range bs.length).find?
          (fun j => decide (args.getD (args.length - 1 - (i + 1 + j)) "" = q)) with
      | none => simp only [Option.map_none]; rw [Dict.get?_set_ne _ _ h0]
      | some j => simp

/-- The code's test for an optional timestep means what it should. -/
theorem timestep_optional_iff (s : ArgSpec) (hs : s.WF) :
    (kwargDefaults s).get? "timestep" = some true ↔ TimestepOptional s := by
  obtain ⟨hn, hl⟩ := hs
  unfold kwargDefaults
  rw [kwargLoop_get? _ _ _ _ _ hn (by simpa using hl)]
  simp only [Nat.zero_add, List.length_reverse]
  constructor
  · intro h
    cases hf : (List.range s.defaultsNone.length).find?
        (fun j => decide (s.args.getD (s.args.length - 1 - j) "" = "timestep")) with
    | none => rw [hf] at h; simp at h
    | some j =>
      rw [hf] at h
      have h1 := List.find?_some hf
      have h2 := List.mem_range.1 (List.mem_of_find?_eq_some hf)
      refine ⟨s.args.take (s.args.length - s.defaultsNone.length),
        s.args.drop (s.args.length - s.defaultsNone.length), (List.take_append_drop _ _).symm, ?_, ?_⟩
      · rw [List.length_drop]; omega
      · rw [List.mem_iff_getElem?]
        refine ⟨s.defaultsNone.length - 1 - j, ?_⟩
        rw [List.getElem?_zip_eq_some]
        have h3 := of_decide_eq_true h1
        rw [getD_of_lt _ _ (by omega)] at h3
        constructor
        · rw [List.getElem?_drop, List.getElem?_eq_getElem (by omega), ← h3]
          congr 2
          omega
        · simp only at h
          rw [List.getElem?_reverse h2] at h
          exact h
  · rintro ⟨pre, post, ha, hp, hm⟩
    obtain ⟨m, hm⟩ := List.mem_iff_getElem?.1 hm
    rw [List.getElem?_zip_eq_some] at hm
    obtain ⟨hm1, hm2⟩ := hm
    have hlt : m < s.defaultsNone.length := (List.getElem?_eq_some_iff.1 hm2).1
    have hat : s.args[pre.length + m]? = some "timestep" := by
      rw [ha, List.getElem?_append_right (by omega)]; simpa using hm1
    have hlen : s.args.length = pre.length + s.defaultsNone.length := by rw [ha, List.length_append, hp]
    cases hf : (List.range s.defaultsNone.length).find?
        (fun j => decide (s.args.getD (s.args.length - 1 - j) "" = "timestep")) with
    | none =>
      rw [List.find?_eq_none] at hf
      exfalso
      apply hf (s.defaultsNone.length - 1 - m) (List.mem_range.2 (by omega))
      rw [show s.args.length - 1 - (s.defaultsNone.length - 1 - m) = pre.length + m from by omega,
        List.getD_eq_getElem?_getD, hat]
      rfl
    | some j =>
      have h1 := List.find?_some hf
      have h1 := of_decide_eq_true h1
      have h2 := List.mem_range.1 (List.mem_of_find?_eq_some hf)
      rw [getD_of_lt _ _ (by omega)] at h1
      obtain ⟨hx, hat⟩ := List.getElem?_eq_some_iff.1 hat
      rw [← hat] at h1
      have := (List.Nodup.getElem_inj_iff hn).1 h1
      simp only
      rw [List.getElem?_reverse h2, ← hm2]
      congr 1
      omega

/-- What distinguishes the kinds, in terms of the documented interface: a Stepper
has outputs, the tendency components have tendencies, a DiagnosticComponent has
neither and no tendencies in its diagnostics. -/
def Interface (k : Kind) (o : Obj) : Prop :=
  o.has "input_properties" ∧ o.has "diagnostic_properties" ∧ o.has "array_call" ∧
  match k with
  | .stepper => o.has "output_properties" ∧ ¬ o.has "tendency_properties" ∧ o.has "tendencies_in_diagnostics"
  | .diagnostic => ¬ o.has "output_properties" ∧ ¬ o.has "tendency_properties" ∧
      ¬ o.has "tendencies_in_diagnostics"
  | _ => ¬ o.has "output_properties" ∧ o.has "tendency_properties" ∧ o.has "tendencies_in_diagnostics" ∧
      o.has "name"

/-- Steppers and implicit components are called with a timestep. -/
def NeedsTimestep : Kind → Prop
  | .stepper | .implicit => True
  | _ => False

/-- **C20, characterisation.**  A duck-typed object is an instance of a kind exactly
if it has that kind's interface and takes a `timestep` exactly if the kind does, or
optionally. -/
theorem duck_type_iff (k : Kind) (o : Obj) (hb : o.bases = []) (hwf : ∀ s, o.call = some s → s.WF) :
    isInstance k o = true ↔ ∃ s, o.call = some s ∧ Interface k o ∧
      ((NeedsTimestep k ↔ "timestep" ∈ s.args) ∨ TimestepOptional s) := by
  unfold isInstance
  rw [hb]
  cases hc : o.call with
  | none => simp
  | some s =>
    have hcall : o.has "__call__" = true := by unfold Obj.has; simp [hc]
    simp only [List.isEmpty_nil, Bool.not_true, Bool.false_eq_true, if_false, Option.some.injEq,
      exists_eq_left', Bool.and_eq_true, Bool.or_eq_true, decide_eq_true_eq]
    rw [timestep_optional_iff s (hwf s hc)]
    have e1 : ∀ l : List String, l.all o.has = true ↔ ∀ a ∈ l, o.has a = true := by
      intro l; exact List.all_eq_true
    have e2 : ∀ l : List String, (!(l.any o.has)) = true ↔ ∀ a ∈ l, ¬ o.has a = true := by
      intro l; simp [List.any_eq_false]
    rw [e1, e2]
    refine and_congr ?_ (or_congr ?_ Iff.rfl)
    · cases k <;>
        simp [requiredAttributes, disallowedAttributes, checkAttributes, classAttrs, Interface, hcall] <;>
        tauto
    · cases k <;> simp [classCallArgs, NeedsTimestep]

/-- **C20.**  A duck-typed object is of at most one kind, except that one with an
optional timestep may be both a TendencyComponent and an ImplicitTendencyComponent. -/
theorem duck_kinds_exclusive (o : Obj) (hb : o.bases = []) (hwf : ∀ s, o.call = some s → s.WF)
    (k k' : Kind) (h : isInstance k o = true) (h' : isInstance k' o = true) :
    k = k' ∨ ((∃ s, o.call = some s ∧ TimestepOptional s) ∧
      ((k = .tendency ∧ k' = .implicit) ∨ (k = .implicit ∧ k' = .tendency))) := by
  obtain ⟨s, hs, hi, ht⟩ := (duck_type_iff k o hb hwf).1 h
  obtain ⟨s', hs', hi', ht'⟩ := (duck_type_iff k' o hb hwf).1 h'
  rw [hs] at hs'; cases hs'
  obtain ⟨_, _, _, hi⟩ := hi
  obtain ⟨_, _, _, hi'⟩ := hi'
  have hopt : ∀ (_ : ¬ (NeedsTimestep k ↔ NeedsTimestep k')), TimestepOptional s := by
    intro hne
    rcases ht with ht | ht
    · rcases ht' with ht' | ht'
      · exact absurd (ht.trans ht'.symm) hne
      · exact ht'
    · exact ht
  cases k <;> cases k' <;> dsimp only at hi hi' <;>
    first
    | exact Or.inl rfl
    | exact Or.inr ⟨⟨s, hs, hopt (by simp [NeedsTimestep])⟩, Or.inl ⟨rfl, rfl⟩⟩
    | exact Or.inr ⟨⟨s, hs, hopt (by simp [NeedsTimestep])⟩, Or.inr ⟨rfl, rfl⟩⟩
    | exact absurd hi.1 hi'.1
    | exact absurd hi'.1 hi.1
    | exact absurd hi.2.1 hi'.2.1
    | exact absurd hi'.2.1 hi.2.1

/-- The exception is exact: with an optional timestep an object is a
TendencyComponent iff it is an ImplicitTendencyComponent. -/
theorem optional_timestep_both (o : Obj) (hb : o.bases = []) (hwf : ∀ s, o.call = some s → s.WF)
    (s : ArgSpec) (hs : o.call = some s) (ht : TimestepOptional s) :
    isInstance .tendency o = true ↔ isInstance .implicit o = true := by
  rw [duck_type_iff _ o hb hwf, duck_type_iff _ o hb hwf]
  constructor <;> rintro ⟨s', hs', hi, _⟩ <;> rw [hs] at hs' <;> cases hs' <;>
    exact ⟨s, hs, hi, Or.inr ht⟩

/-- An object inheriting from a base class is classified by inheritance alone. -/
theorem inheriting_kind (o : Obj) (hb : o.bases ≠ []) (k : Kind) :
    isInstance k o = true ↔ k ∈ o.bases := by
  unfold isInstance
  cases hb' : o.bases with
  | nil => exact absurd hb' hb
  | cons a l => simp

/-- Example objects: what the wrappers look like around a tendency component (their
`__call__(self, state, timestep=None)`), and one with a required timestep. -/
def Demo.wrapper : Obj where
  attrs := ["input_properties", "tendency_properties", "diagnostic_properties", "array_call",
    "tendencies_in_diagnostics", "name", "extra"]
  bases := []
  call := some ⟨["self", "state", "timestep"], [true]⟩

example : isInstance .tendency Demo.wrapper = true ∧ isInstance .implicit Demo.wrapper = true ∧
    isInstance .stepper Demo.wrapper = false ∧ isInstance .diagnostic Demo.wrapper = false ∧
    isInstance .tendency { Demo.wrapper with call := some ⟨["self", "state", "timestep"], [false]⟩ } = false ∧
    isInstance .implicit { Demo.wrapper with call := some ⟨["self", "state", "timestep"], []⟩ } = true ∧
    (⟨["self", "state", "timestep"], [true]⟩ : ArgSpec).WF := by
  refine ⟨by decide, by decide, by decide, by decide, by decide, by decide, ?_, ?_⟩ <;> decide

end Verif

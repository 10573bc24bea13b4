import Verif.Lemmas.Wildcard
import Verif.Lemmas.DataArray
import Verif.Spec.Demo
/-!
# C10 – C12: units and DataArray arithmetic
-/

namespace Verif

/-- **C10, success.**  `a.to_units(u)` keeps dims, shape and all attributes other
than units; its units denote `u`; every element is the same physical value. -/
theorem to_units_preserves_quantity (R : Registry) (hR : R.Faithful) (a q : DataArray) (u : String)
    (h : a.toUnits R u = .ok q) :
    q.dims = a.dims ∧ q.arr.shape = a.arr.shape ∧
    (∀ k, k ≠ "units" → q.attrs.get? k = a.attrs.get? k) ∧
    ∃ own own', a.attrs.get? "units" = some own ∧ q.attrs.get? "units" = some own' ∧
      SameUnit R own' u ∧ ∀ idx, SamePhysical R own' (q.arr.get idx) own (a.arr.get idx) := by
  obtain ⟨own, h1, h2, h3, h4, x, y, hx, hy, h5⟩ := toUnits_ok hR h
  refine ⟨h2, h3, ?_, ?_⟩
  · rcases h5 with ⟨rfl, _⟩ | ⟨h5, _⟩
    · exact fun _ _ => rfl
    · intro k hk; rw [h5]; exact Dict.get?_set_ne _ _ (Ne.symm hk)
  · rcases h5 with ⟨rfl, hs⟩ | ⟨h5, _⟩
    · rw [PintUnit.sameQty_iff] at hs
      obtain ⟨s1, s2⟩ := hR own u x y hx hy hs.1 hs.2
      exact ⟨own, own, h1, h1, ⟨x, y, hx, hy, hs.1, s1, s2⟩, fun _ => ⟨x, x, hx, hx, rfl, rfl⟩⟩
    · exact ⟨own, u, h1, by rw [h5]; exact Dict.get?_set_self _ _ _,
        ⟨y, y, hy, hy, rfl, rfl, rfl⟩, h4⟩

/-- **C10, converting back** restores the original values. -/
theorem to_units_back (R : Registry) (hR : R.Faithful) (a q : DataArray) (u own : String)
    (h : a.toUnits R u = .ok q) (ho : a.attrs.get? "units" = some own) :
    ∃ b, q.toUnits R own = .ok b ∧ b.dims = a.dims ∧ b.arr.shape = a.arr.shape ∧
      ∀ idx, b.arr.get idx = a.arr.get idx := by
  obtain ⟨d1, d2, _, o, own', o1, o2, ⟨y, y', hy, _⟩, o4⟩ :=
    to_units_preserves_quantity R hR a q u h
  rw [ho] at o1; cases o1
  obtain ⟨p, p', hp, hp', pd, _⟩ := o4 []
  obtain ⟨b, hb⟩ := toUnits_isOk (v := q) o2 hp hp' pd
  obtain ⟨w, w1, w2, w3, w4, _⟩ := toUnits_ok hR hb
  rw [o2] at w1; cases w1
  refine ⟨b, hb, w2.trans d1, w3.trans d2, ?_⟩
  intro idx
  obtain ⟨m, n, m1, n1, _, mn⟩ := w4 idx
  obtain ⟨m', n', m1', n1', _, mn'⟩ := o4 idx
  rw [n1] at m1'; cases m1'
  rw [m1] at n1'; cases n1'
  rw [mn'] at mn
  have h0 : b.arr.get idx * m.scale = a.arr.get idx * m.scale := by linarith
  exact mul_right_cancel₀ (ne_of_gt m.scale_pos) h0

/-- **C10, errors.**  `to_units` raises ValueError exactly when both units are
known and their dimensions differ, KeyError exactly when there is no units
attribute, and pint's UndefinedUnitError exactly when a unit is unknown. -/
theorem to_units_errors (R : Registry) (a : DataArray) (u : String) :
    (a.toUnits R u = .error .valueError ↔
      ∃ own x y, a.attrs.get? "units" = some own ∧ R.parse own = some x ∧ R.parse u = some y ∧
        x.dim ≠ y.dim) ∧
    (a.toUnits R u = .error .keyError ↔ a.attrs.get? "units" = none) ∧
    (a.toUnits R u = .error .undefinedUnit ↔
      ∃ own, a.attrs.get? "units" = some own ∧ (R.parse own = none ∨ R.parse u = none)) := by
  unfold DataArray.toUnits DataArray.dataArrayToUnits
  cases hu : a.attrs.get? "units" with
  | none => simp
  | some own =>
    cases hx : R.parse own with
    | none => simp [Registry.unit, hx]
    | some x =>
      cases hy : R.parse u with
      | none => simp [Registry.unit, hx, hy]
      | some y =>
        simp only [Registry.unit, hx, hy, Exc.ok_bind]
        by_cases hs : x.sameQty y = true
        · have := PintUnit.sameQty_iff.1 hs
          simp [hs, this.1, hx]
        · by_cases hd : x.dim = y.dim
          · simp [hs, hd, hx]
          · simp [hs, hd, hx]

/-- Non-vacuity of C10: an offset unit, other attributes kept. -/
example : Exc.test (Demo.temp.toUnits Demo.reg "degF") (fun q =>
    decide (q.attrs = [("units", "degF"), ("long_name", "temperature")] ∧
      q.arr.get [1, 0, 0] = 100 * 9 / 5 - 45967 / 100)) = true := by decide +kernel
example : Demo.temp.toUnits Demo.reg "m" = .error .valueError :=
  Exc.failsWith_error (by decide +kernel)

/-- **C11, compatibility** is an equivalence relation on known units. -/
theorem units_compatible_equivalence (R : Registry) :
    (∀ s, (R.parse s).isSome → R.unitsAreCompatible s s = .ok true) ∧
    (∀ s t b, R.unitsAreCompatible s t = .ok b → R.unitsAreCompatible t s = .ok b) ∧
    (∀ s t u, R.unitsAreCompatible s t = .ok true → R.unitsAreCompatible t u = .ok true →
      R.unitsAreCompatible s u = .ok true) := by
  have key : ∀ s t b, R.unitsAreCompatible s t = .ok b ↔
      ∃ x y, R.parse s = some x ∧ R.parse t = some y ∧ decide (x.dim = y.dim) = b := by
    intro s t b
    unfold Registry.unitsAreCompatible Registry.unit
    cases R.parse s <;> cases R.parse t <;> simp
  refine ⟨?_, ?_, ?_⟩
  · intro s hs
    obtain ⟨x, hx⟩ := Option.isSome_iff_exists.1 hs
    exact (key _ _ _).2 ⟨x, x, hx, hx, by simp⟩
  · intro s t b h
    obtain ⟨x, y, hx, hy, h⟩ := (key _ _ _).1 h
    refine (key _ _ _).2 ⟨y, x, hy, hx, ?_⟩
    rw [← h]; exact decide_eq_decide.2 eq_comm
  · intro s t u h1 h2
    obtain ⟨x, y, hx, hy, h1⟩ := (key _ _ _).1 h1
    obtain ⟨y', z, hy', hz, h2⟩ := (key _ _ _).1 h2
    rw [hy] at hy'; cases hy'
    simp only [decide_eq_true_eq] at h1 h2
    exact (key _ _ _).2 ⟨x, z, hx, hz, by simp [h1, h2]⟩

/-- **C11, sameness** is an equivalence relation on known units and implies
compatibility. -/
theorem units_same_equivalence (R : Registry) :
    (∀ s, (R.parse s).isSome → R.unitsAreSame s s = .ok true) ∧
    (∀ s t b, R.unitsAreSame s t = .ok b → R.unitsAreSame t s = .ok b) ∧
    (∀ s t u, R.unitsAreSame s t = .ok true → R.unitsAreSame t u = .ok true →
      R.unitsAreSame s u = .ok true) ∧
    (∀ s t, R.unitsAreSame s t = .ok true → R.unitsAreCompatible s t = .ok true) := by
  have key : ∀ s t b, R.unitsAreSame s t = .ok b ↔
      ∃ x y, R.parse s = some x ∧ R.parse t = some y ∧ x.sameQty y = b := by
    intro s t b
    unfold Registry.unitsAreSame Registry.unit
    cases R.parse s <;> cases R.parse t <;> simp
  refine ⟨?_, ?_, ?_, ?_⟩
  · intro s hs
    obtain ⟨x, hx⟩ := Option.isSome_iff_exists.1 hs
    exact (key _ _ _).2 ⟨x, x, hx, hx, PintUnit.sameQty_iff.2 ⟨rfl, rfl⟩⟩
  · intro s t b h
    obtain ⟨x, y, hx, hy, h⟩ := (key _ _ _).1 h
    refine (key _ _ _).2 ⟨y, x, hy, hx, ?_⟩
    rw [← h, Bool.eq_iff_iff, PintUnit.sameQty_iff, PintUnit.sameQty_iff]
    constructor <;> rintro ⟨h1, h2⟩ <;> exact ⟨h1.symm, h2.symm⟩
  · intro s t u h1 h2
    obtain ⟨x, y, hx, hy, h1⟩ := (key _ _ _).1 h1
    obtain ⟨y', z, hy', hz, h2⟩ := (key _ _ _).1 h2
    rw [hy] at hy'; cases hy'
    rw [PintUnit.sameQty_iff] at h1 h2
    exact (key _ _ _).2 ⟨x, z, hx, hz, PintUnit.sameQty_iff.2 ⟨h1.1.trans h2.1, h1.2.trans h2.2⟩⟩
  · intro s t h
    obtain ⟨x, y, hx, hy, h⟩ := (key _ _ _).1 h
    rw [PintUnit.sameQty_iff] at h
    unfold Registry.unitsAreCompatible Registry.unit
    simp [hx, hy, h.1]

/-- **C11**: compatible units are exactly those `to_units` converts between. -/
theorem compatible_iff_to_units (R : Registry) (a : DataArray) (s t : String)
    (hs : a.attrs.get? "units" = some s) :
    R.unitsAreCompatible s t = .ok true ↔ ∃ q, a.toUnits R t = .ok q := by
  constructor
  · intro h
    unfold Registry.unitsAreCompatible at h
    obtain ⟨x, hx, h1⟩ := Exc.bind_ok_iff.1 h
    obtain ⟨y, hy, h2⟩ := Exc.bind_ok_iff.1 h1
    injection h2 with h2
    simp only [decide_eq_true_eq] at h2
    exact toUnits_isOk hs (Registry.unit_ok.1 hx) (Registry.unit_ok.1 hy) h2
  · rintro ⟨q, h⟩
    unfold DataArray.toUnits DataArray.dataArrayToUnits at h
    unfold Registry.unitsAreCompatible Registry.unit
    rw [hs] at h
    cases hx : R.parse s with
    | none => simp [Registry.unit, hx] at h
    | some x =>
      cases hy : R.parse t with
      | none => simp [Registry.unit, hx, hy] at h
      | some y =>
        simp only [Registry.unit, hx, hy, Exc.ok_bind] at h ⊢
        by_cases hq : x.sameQty y = true
        · simp [(PintUnit.sameQty_iff.1 hq).1]
        · by_cases hd : x.dim = y.dim
          · simp [hd]
          · simp [hq, hd] at h

/-- Non-vacuity of C11. -/
example : Exc.test (Demo.reg.unitsAreSame "m/s" "m s^-1") id = true ∧
    Exc.test (Demo.reg.unitsAreCompatible "K" "degF") id = true ∧
    Exc.test (Demo.reg.unitsAreSame "K" "degC") not = true := by decide +kernel

/-! ## C12 -/

/-- **C12, addition.**  `a + b` exists exactly when shared dims have equal
lengths; it has the dims of `a` and then those only `b` has, with their lengths;
at every named coordinate it is the sum; its attributes are those of `a`. -/
theorem add_by_name (a b : DataArray) (ha : a.WF) (hb : b.WF) :
    (SameLengths a b → ∃ r, a.add b = .ok r ∧ r.WF ∧ r.attrs = a.attrs ∧
      (∀ d, d ∈ r.dims ↔ d ∈ a.dims ∨ d ∈ b.dims) ∧ a.dims <+: r.dims ∧
      (∀ d ∈ a.dims, r.len d = a.len d) ∧ (∀ d ∈ b.dims, r.len d = b.len d) ∧
      ∀ ix, r.at' ix = a.at' ix + b.at' ix) ∧
    (¬ SameLengths a b → a.add b = .error .valueError) := by
  obtain ⟨h1, h2⟩ := binop_spec (· + ·) a b ha hb
  constructor
  · intro h
    obtain ⟨r, r1, r2, r3, r4, r5, r6⟩ := h1 h
    refine ⟨{ r with attrs := a.attrs }, ?_, r2, rfl, ?_, ?_, r4, r5, r6⟩
    · unfold DataArray.add; rw [r1]; rfl
    · intro d
      show d ∈ r.dims ↔ _
      rw [r3, List.mem_append, List.mem_filter]
      by_cases hd : d ∈ a.dims <;> simp [hd]
    · show a.dims <+: r.dims
      rw [r3]; exact List.prefix_append _ _
  · intro h
    unfold DataArray.add; rw [h2 h]; rfl

/-- **C12, subtraction.** -/
theorem sub_by_name (a b : DataArray) (ha : a.WF) (hb : b.WF) :
    (SameLengths a b → ∃ r, a.sub b = .ok r ∧ r.WF ∧ r.attrs = a.attrs ∧
      (∀ d, d ∈ r.dims ↔ d ∈ a.dims ∨ d ∈ b.dims) ∧ a.dims <+: r.dims ∧
      (∀ d ∈ a.dims, r.len d = a.len d) ∧ (∀ d ∈ b.dims, r.len d = b.len d) ∧
      ∀ ix, r.at' ix = a.at' ix - b.at' ix) ∧
    (¬ SameLengths a b → a.sub b = .error .valueError) := by
  obtain ⟨h1, h2⟩ := binop_spec (· - ·) a b ha hb
  constructor
  · intro h
    obtain ⟨r, r1, r2, r3, r4, r5, r6⟩ := h1 h
    refine ⟨{ r with attrs := a.attrs }, ?_, r2, rfl, ?_, ?_, r4, r5, r6⟩
    · unfold DataArray.sub; rw [r1]; rfl
    · intro d
      show d ∈ r.dims ↔ _
      rw [r3, List.mem_append, List.mem_filter]
      by_cases hd : d ∈ a.dims <;> simp [hd]
    · show a.dims <+: r.dims
      rw [r3]; exact List.prefix_append _ _
  · intro h
    unfold DataArray.sub; rw [h2 h]; rfl

/-- Non-vacuity of C12: different dims; units of the left operand are kept. -/
example : Exc.test (Demo.prof.add Demo.temp) (fun r =>
    decide (r.dims = ["z", "x", "y"] ∧ r.attrs = [("units", "km")] ∧ r.arr.get [2, 1, 0] = 3 + 120)) = true := by
  decide +kernel

end Verif

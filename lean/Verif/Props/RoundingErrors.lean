import Verif.Spec.RoundingErrors
import Verif.Props.Unstepped
/-! # Rounding errors of Adams-Bashforth steps and runs: property C110 -/

namespace Verif

variable {fl : Rat → Rat} {conv : DataArray → String → Except Err DataArray} {u : Rat}

/-! ## One step -/

/-- The step of an element as the code computes it (timesteppers.py:320-366): every constant, product, sum and
difference rounded. -/
def roundedAB (fl : Rat → Rat) (m : Nat) (x dt : Rat) (past : Nat → Rat) : Rat :=
  let c (r : Rat) (j : Nat) : Rat := fl (fl r * past j)
  match m with
  | 1 => fl (x + c dt 0)
  | 2 => fl (x + fl (fl dt * fl (c (3 / 2) 0 - c (1 / 2) 1)))
  | 3 => fl (x + fl (fl dt * fl (fl (c (23 / 12) 0 - c (4 / 3) 1) + c (5 / 12) 2)))
  | 4 => fl (x + fl (fl dt * fl (fl (fl (c (55 / 24) 0 - c (59 / 24) 1) + c (37 / 24) 2) - c (3 / 8) 3)))
  | _ => x

theorem roundedSub_ok {a b r : DataArray} (h : (roundedArith fl conv).sub a b = .ok r) :
    r.attrs = a.attrs ∧ r.dims = a.dims ++ b.dims.filter (fun d => d ∉ a.dims) ∧
    ∀ ix, r.at' ix = fl (a.at' ix - b.at' ix) := by
  obtain ⟨r', hr, h⟩ := Exc.bind_ok_iff.1 h
  injection h with h
  subst h
  obtain ⟨h1, h2, h3⟩ := sub_ok hr
  exact ⟨h1, h2, fun ix => congrArg fl (h3 ix)⟩

theorem roundedSmul_at (c : Rat) (a : DataArray) (ix : String → Nat) :
    ((roundedArith fl conv).smul c a).at' ix = fl (fl c * a.at' ix) := rfl

/-- Which quantities a step gives new values, and which values. -/
theorem performStepO_spec {order : Nat} {hist : List (Dict DataArray)} {state new : EState DataArray} {dt : Int}
    (h : performStepO (roundedArith fl conv) order hist state dt = .ok new) :
    ∃ m, m = min order hist.length ∧ 1 ≤ m ∧ m ≤ 4 ∧
      Dict.keys new = Dict.keys ((if m = 1 then hist.getLast? else hist.head?).getD []) ∧
      ∀ q ∈ Dict.keys new, ∃ x r, Dict.get? state q = some (.da x) ∧ Dict.get? new q = some (.da r) ∧
        r.attrs = x.attrs ∧ (∀ d ∈ x.dims, d ∈ r.dims) ∧
        ∀ ix, r.at' ix = roundedAB fl m (x.at' ix) (seconds dt) (fun j => tval (hist.reverse.getD j []) q ix) := by
  unfold performStepO at h
  cases hh : hist with
  | nil => rw [hh] at h; cases h
  | cons t0 l =>
    cases hr : hist.reverse with
    | nil => rw [List.reverse_eq_nil_iff] at hr; rw [hr] at hh; cases hh
    | cons t1 prev =>
      have hlast : hist.getLast? = some t1 := by rw [← List.head?_reverse, hr]; rfl
      have hhead : hist.head? = some t0 := by rw [hh]; rfl
      rw [← hh, hr]
      rw [hr] at h
      rw [hh] at h
      simp only at h
      rw [← hh] at h
      split at h
      · rename_i hm
        refine ⟨1, hm.symm, by omega, by omega, ?_⟩
        unfold stepEulerO at h
        obtain ⟨k1, k2⟩ := stepKeysO_ok h
        refine ⟨?_, ?_⟩
        · rw [k1, hlast]; rfl
        · intro q hq
          rw [k1] at hq
          obtain ⟨r, hf, hg⟩ := k2 q hq
          obtain ⟨x, hx, hf⟩ := Exc.bind_ok_iff.1 hf
          obtain ⟨v, hv, hf⟩ := Exc.bind_ok_iff.1 hf
          obtain ⟨a1, a2, a3⟩ := roundedAdd_ok hf
          refine ⟨x, r, EState.da_ok.1 hx, hg, a1, fun d hd => by rw [a2]; simp [hd], ?_⟩
          intro ix
          rw [a3, roundedSmul_at]
          simp only [roundedAB, List.getD_cons_zero, tval_of_get (Dict.get_eq_ok.1 hv)]
      · rename_i t2 prev' hm
        refine ⟨2, hm.symm, by omega, by omega, ?_⟩
        unfold secondBashforthO at h
        obtain ⟨k1, k2⟩ := stepKeysO_ok h
        refine ⟨?_, ?_⟩
        · rw [k1, hhead]; rfl
        · intro q hq
          rw [k1] at hq
          obtain ⟨r, hf, hg⟩ := k2 q hq
          obtain ⟨x, hx, hf⟩ := Exc.bind_ok_iff.1 hf
          obtain ⟨v1, hv1, hf⟩ := Exc.bind_ok_iff.1 hf
          obtain ⟨v2, hv2, hf⟩ := Exc.bind_ok_iff.1 hf
          obtain ⟨d, hd, hf⟩ := Exc.bind_ok_iff.1 hf
          obtain ⟨_, _, s3⟩ := roundedSub_ok hd
          obtain ⟨a1, a2, a3⟩ := roundedAdd_ok hf
          refine ⟨x, r, EState.da_ok.1 hx, hg, a1, fun d hd => by rw [a2]; simp [hd], ?_⟩
          intro ix
          rw [a3, roundedSmul_at, s3, roundedSmul_at, roundedSmul_at]
          simp only [roundedAB, List.getD_cons_zero, List.getD_cons_succ,
            tval_of_get (Dict.get_eq_ok.1 hv1), tval_of_get (Dict.get_eq_ok.1 hv2)]
      · rename_i t2 t3 prev' hm
        refine ⟨3, hm.symm, by omega, by omega, ?_⟩
        unfold thirdBashforthO at h
        obtain ⟨k1, k2⟩ := stepKeysO_ok h
        refine ⟨?_, ?_⟩
        · rw [k1, hhead]; rfl
        · intro q hq
          rw [k1] at hq
          obtain ⟨r, hf, hg⟩ := k2 q hq
          obtain ⟨x, hx, hf⟩ := Exc.bind_ok_iff.1 hf
          obtain ⟨v1, hv1, hf⟩ := Exc.bind_ok_iff.1 hf
          obtain ⟨v2, hv2, hf⟩ := Exc.bind_ok_iff.1 hf
          obtain ⟨d, hd, hf⟩ := Exc.bind_ok_iff.1 hf
          obtain ⟨v3, hv3, hf⟩ := Exc.bind_ok_iff.1 hf
          obtain ⟨d', hd', hf⟩ := Exc.bind_ok_iff.1 hf
          obtain ⟨_, _, s3⟩ := roundedSub_ok hd
          obtain ⟨_, _, s4⟩ := roundedAdd_ok hd'
          obtain ⟨a1, a2, a3⟩ := roundedAdd_ok hf
          refine ⟨x, r, EState.da_ok.1 hx, hg, a1, fun d hd => by rw [a2]; simp [hd], ?_⟩
          intro ix
          rw [a3, roundedSmul_at, s4, s3, roundedSmul_at, roundedSmul_at, roundedSmul_at]
          simp only [roundedAB, List.getD_cons_zero, List.getD_cons_succ,
            tval_of_get (Dict.get_eq_ok.1 hv1), tval_of_get (Dict.get_eq_ok.1 hv2),
            tval_of_get (Dict.get_eq_ok.1 hv3)]
      · rename_i t2 t3 t4 prev' hm
        refine ⟨4, hm.symm, by omega, by omega, ?_⟩
        unfold fourthBashforthO at h
        obtain ⟨k1, k2⟩ := stepKeysO_ok h
        refine ⟨?_, ?_⟩
        · rw [k1, hhead]; rfl
        · intro q hq
          rw [k1] at hq
          obtain ⟨r, hf, hg⟩ := k2 q hq
          obtain ⟨x, hx, hf⟩ := Exc.bind_ok_iff.1 hf
          obtain ⟨v1, hv1, hf⟩ := Exc.bind_ok_iff.1 hf
          obtain ⟨v2, hv2, hf⟩ := Exc.bind_ok_iff.1 hf
          obtain ⟨d, hd, hf⟩ := Exc.bind_ok_iff.1 hf
          obtain ⟨v3, hv3, hf⟩ := Exc.bind_ok_iff.1 hf
          obtain ⟨d', hd', hf⟩ := Exc.bind_ok_iff.1 hf
          obtain ⟨v4, hv4, hf⟩ := Exc.bind_ok_iff.1 hf
          obtain ⟨d'', hd'', hf⟩ := Exc.bind_ok_iff.1 hf
          obtain ⟨_, _, s3⟩ := roundedSub_ok hd
          obtain ⟨_, _, s4⟩ := roundedAdd_ok hd'
          obtain ⟨_, _, s5⟩ := roundedSub_ok hd''
          obtain ⟨a1, a2, a3⟩ := roundedAdd_ok hf
          refine ⟨x, r, EState.da_ok.1 hx, hg, a1, fun d hd => by rw [a2]; simp [hd], ?_⟩
          intro ix
          rw [a3, roundedSmul_at, s5, s4, s3, roundedSmul_at, roundedSmul_at, roundedSmul_at, roundedSmul_at]
          simp only [roundedAB, List.getD_cons_zero, List.getD_cons_succ,
            tval_of_get (Dict.get_eq_ok.1 hv1), tval_of_get (Dict.get_eq_ok.1 hv2),
            tval_of_get (Dict.get_eq_ok.1 hv3), tval_of_get (Dict.get_eq_ok.1 hv4)]
      · cases h

theorem roundedAB_near (hu : 0 ≤ u) (hfl : Rounds u fl) {m : Nat} (h1 : 1 ≤ m) (h4 : m ≤ 4) (x dt : Rat)
    (past : Nat → Rat) :
    Near u (m + 4) (roundedAB fl m x dt past) (abFormula m x dt past) (abSize m x dt past) := by
  have hx : ∀ n, Near u n x x |x| := fun n => (Near.exact x).mono hu (Nat.zero_le n) (le_refl _)
  have hc : ∀ (c : Rat) (j n : Nat), Near u (n + 2) (fl (fl c * past j)) (c * past j) (|c| * |past j|) := fun c j n =>
    ((Near.exact (past j)).smul hu hfl c).mono hu (by omega) (le_refl _)
  rcases (by omega : m = 1 ∨ m = 2 ∨ m = 3 ∨ m = 4) with rfl | rfl | rfl | rfl
  · have e := ((hx 2).add (hc dt 0 0)).round hu hfl
    have f : abFormula 1 x dt past = x + dt * past 0 := by simp [abFormula, abCoef]
    have g : abSize 1 x dt past = |x| + |dt| * |past 0| := by simp [abSize, abCoef]
    rw [f, g]
    exact e.mono hu (by omega) (le_refl _)
  · have e := (((hx 5).add (((((hc (3 / 2) 0 0).sub (hc (1 / 2) 1 0)).round hu hfl).smul hu hfl dt))).round hu hfl)
    have f : abFormula 2 x dt past = x + dt * (3 / 2 * past 0 - 1 / 2 * past 1) := by
      simp only [abFormula, abCoef, List.range_succ, List.range_zero, List.nil_append, List.cons_append,
        List.map_cons, List.map_nil, List.sum_cons, List.sum_nil]
      ring
    have g : abSize 2 x dt past = |x| + |dt| * (|3 / 2| * |past 0| + |1 / 2| * |past 1|) := by
      simp only [abSize, abCoef, List.range_succ, List.range_zero, List.nil_append, List.cons_append,
        List.map_cons, List.map_nil, List.sum_cons, List.sum_nil]
      rw [show (-1 / 2 : Rat) = -(1 / 2) by norm_num, abs_neg]; ring
    rw [f, g]
    exact e.mono hu (by omega) (le_refl _)
  · have e := (((hx 6).add ((((((hc (23 / 12) 0 0).sub (hc (4 / 3) 1 0)).round hu hfl).add
      (hc (5 / 12) 2 1)).round hu hfl).smul hu hfl dt)).round hu hfl)
    have f : abFormula 3 x dt past = x + dt * (23 / 12 * past 0 - 4 / 3 * past 1 + 5 / 12 * past 2) := by
      simp only [abFormula, abCoef, List.range_succ, List.range_zero, List.nil_append, List.cons_append,
        List.map_cons, List.map_nil, List.sum_cons, List.sum_nil]
      ring
    have g : abSize 3 x dt past =
        |x| + |dt| * (|23 / 12| * |past 0| + |4 / 3| * |past 1| + |5 / 12| * |past 2|) := by
      simp only [abSize, abCoef, List.range_succ, List.range_zero, List.nil_append, List.cons_append,
        List.map_cons, List.map_nil, List.sum_cons, List.sum_nil]
      rw [show (-16 / 12 : Rat) = -(4 / 3) by norm_num, abs_neg]; ring
    rw [f, g]
    exact e.mono hu (by omega) (le_refl _)
  · have e := (((hx 7).add ((((((((hc (55 / 24) 0 0).sub (hc (59 / 24) 1 0)).round hu hfl).add
      (hc (37 / 24) 2 1)).round hu hfl).sub (hc (3 / 8) 3 2)).round hu hfl).smul hu hfl dt)).round hu hfl)
    have f : abFormula 4 x dt past =
        x + dt * (55 / 24 * past 0 - 59 / 24 * past 1 + 37 / 24 * past 2 - 3 / 8 * past 3) := by
      simp only [abFormula, abCoef, List.range_succ, List.range_zero, List.nil_append, List.cons_append,
        List.map_cons, List.map_nil, List.sum_cons, List.sum_nil]
      ring
    have g : abSize 4 x dt past = |x| + |dt| *
        (|55 / 24| * |past 0| + |59 / 24| * |past 1| + |37 / 24| * |past 2| + |3 / 8| * |past 3|) := by
      simp only [abSize, abCoef, List.range_succ, List.range_zero, List.nil_append, List.cons_append,
        List.map_cons, List.map_nil, List.sum_cons, List.sum_nil]
      rw [show (-59 / 24 : Rat) = -(59 / 24) by norm_num, abs_neg,
        show (-9 / 24 : Rat) = -(3 / 8) by norm_num, abs_neg]; ring
    rw [f, g]
    exact e.mono hu (by omega) (le_refl _)

theorem roundedAB_zero (h0 : fl 0 = 0) {m : Nat} (h1 : 1 ≤ m) (h4 : m ≤ 4) {x dt : Rat} (hx : fl x = x)
    {past : Nat → Rat} (hp : ∀ j < m, past j = 0) : roundedAB fl m x dt past = x := by
  rcases (by omega : m = 1 ∨ m = 2 ∨ m = 3 ∨ m = 4) with rfl | rfl | rfl | rfl
  · simp [roundedAB, hp 0 (by omega), h0, hx]
  · simp [roundedAB, hp 0 (by omega), hp 1 (by omega), h0, hx]
  · simp [roundedAB, hp 0 (by omega), hp 1 (by omega), hp 2 (by omega), h0, hx]
  · simp [roundedAB, hp 0 (by omega), hp 1 (by omega), hp 2 (by omega), hp 3 (by omega), h0, hx]

/-- C110: in a step of order `m`, every element of every quantity that is stepped is within
`((1 + u)^(m + 4) - 1) * (|x| + |dt| * sum |coefficient| |tendency|)` of the exact step. -/
theorem ab_step_rounding (hu : 0 ≤ u) (hfl : Rounds u fl) (conv : DataArray → String → Except Err DataArray)
    {order : Nat} {hist : List (Dict DataArray)} {state new : EState DataArray} {dt : Int}
    (h : performStepO (roundedArith fl conv) order hist state dt = .ok new) {q : String} (hq : q ∈ Dict.keys new) :
    ∃ x r, Dict.get? state q = some (.da x) ∧ Dict.get? new q = some (.da r) ∧ r.attrs = x.attrs ∧
      ∀ ix, |r.at' ix - abFormula (min order hist.length) (x.at' ix) (seconds dt)
          (fun j => tval (hist.reverse.getD j []) q ix)|
        ≤ ((1 + u) ^ (min order hist.length + 4) - 1) * abSize (min order hist.length) (x.at' ix) (seconds dt)
          (fun j => tval (hist.reverse.getD j []) q ix) := by
  obtain ⟨m, rfl, h1, h4, _, hs⟩ := performStepO_spec h
  obtain ⟨x, r, hx, hr, ha, _, hv⟩ := hs q hq
  refine ⟨x, r, hx, hr, ha, fun ix => ?_⟩
  rw [hv ix]
  exact (roundedAB_near hu hfl h1 h4 _ _ _).err

/-- C110: a quantity whose tendencies are zero keeps its elements exactly (those that the type can hold). -/
theorem ab_zero_tendencies_exact (h0 : fl 0 = 0) (conv : DataArray → String → Except Err DataArray)
    {order : Nat} {hist : List (Dict DataArray)} {state new : EState DataArray} {dt : Int}
    (h : performStepO (roundedArith fl conv) order hist state dt = .ok new) {q : String} (hq : q ∈ Dict.keys new) :
    ∃ x r, Dict.get? state q = some (.da x) ∧ Dict.get? new q = some (.da r) ∧ r.attrs = x.attrs ∧
      ∀ ix, fl (x.at' ix) = x.at' ix → (∀ t ∈ hist, tval t q ix = 0) → r.at' ix = x.at' ix := by
  obtain ⟨m, rfl, h1, h4, _, hs⟩ := performStepO_spec h
  obtain ⟨x, r, hx, hr, ha, _, hv⟩ := hs q hq
  refine ⟨x, r, hx, hr, ha, fun ix hrep hz => ?_⟩
  rw [hv ix]
  refine roundedAB_zero h0 h1 h4 hrep (fun j hj => hz _ ?_)
  have hj' : j < hist.reverse.length := by rw [List.length_reverse]; omega
  rw [List.getD_eq_getElem?_getD, List.getElem?_eq_getElem hj', Option.getD_some, ← List.mem_reverse]
  exact List.getElem_mem hj'

/-! ## Runs -/

theorem roundedArith_id (R : Registry) : roundedArith id (fun a units => a.toUnits R units) = dataArrayArith R := by
  have h : ∀ x : Except Err DataArray, (x >>= fun r => .ok (r.rounded id)) = x := by
    intro x
    cases x <;> rfl
  unfold roundedArith dataArrayArith
  congr 1
  · funext a b; exact h _
  · funext a b; exact h _
  · funext a b; exact h _

theorem id_rounds : Rounds 0 id := fun x => by simp

theorem roundedAB_id {m : Nat} (h1 : 1 ≤ m) (h4 : m ≤ 4) (x dt : Rat) (past : Nat → Rat) :
    roundedAB id m x dt past = abFormula m x dt past := by
  have := (roundedAB_near (le_refl 0) id_rounds h1 h4 x dt past).err
  rw [add_zero, one_pow, sub_self, zero_mul] at this
  exact sub_eq_zero.1 (abs_eq_zero.1 (le_antisymm this (abs_nonneg _)))

theorem abFormula_sub {m : Nat} (h1 : 1 ≤ m) (h4 : m ≤ 4) (x y dt : Rat) (p p' : Nat → Rat) :
    abFormula m x dt p - abFormula m y dt p' = abFormula m (x - y) dt (fun j => p j - p' j) := by
  rcases (by omega : m = 1 ∨ m = 2 ∨ m = 3 ∨ m = 4) with rfl | rfl | rfl | rfl <;>
  · simp only [abFormula, abCoef, List.range_succ, List.range_zero, List.nil_append, List.cons_append,
        List.map_cons, List.map_nil, List.sum_cons, List.sum_nil]
    ring

theorem abSize_le {m : Nat} (h1 : 1 ≤ m) (h4 : m ≤ 4) {x dt X T : Rat} {p : Nat → Rat} (hx : |x| ≤ X)
    (hp : ∀ j, |p j| ≤ T) : abSize m x dt p ≤ X + |dt| * (20 / 3 * T) := by
  have hT : 0 ≤ T := le_trans (abs_nonneg _) (hp 0)
  have hd := abs_nonneg dt
  unfold abSize
  refine add_le_add hx (mul_le_mul_of_nonneg_left ?_ hd)
  have a0 := hp 0
  have a1 := hp 1
  have a2 := hp 2
  have a3 := hp 3
  rcases (by omega : m = 1 ∨ m = 2 ∨ m = 3 ∨ m = 4) with rfl | rfl | rfl | rfl <;>
  · simp only [abCoef, List.range_succ, List.range_zero, List.nil_append, List.cons_append,
        List.map_cons, List.map_nil, List.sum_cons, List.sum_nil]
    norm_num [abs_of_pos, abs_div, abs_neg]
    linarith

variable {I : (String → Nat) → Prop} {w : String → Rat}

theorem CloseStates.copy (hw : ∀ q, 0 ≤ w q) {E E' : Rat} (hE : E ≤ E') {x y n n' : EState DataArray}
    (h : CloseStates I w E x y) (hn : CloseStates I w E' n n') :
    CloseStates I w E' (copyUntouchedO x n) (copyUntouchedO y n') := by
  obtain ⟨c1, c2, c3⟩ := copyUntouchedO_spec x n
  obtain ⟨d1, d2, d3⟩ := copyUntouchedO_spec y n'
  refine ⟨fun q => by rw [c1, d1, h.keys, hn.keys], ?_⟩
  intro q a b ha hb ix hix
  by_cases hq : q ∈ Dict.keys n
  · rw [c2 q hq] at ha
    rw [d2 q ((hn.keys q).1 hq)] at hb
    exact hn.close q a b ha hb ix hix
  · rw [c3 q hq] at ha
    rw [d3 q (fun hc => hq ((hn.keys q).2 hc))] at hb
    exact le_trans (h.close q a b ha hb ix hix) (mul_le_mul_of_nonneg_right hE (hw q))

theorem TendWithin.mono (hw : ∀ q, 0 ≤ w q) {D D' : Rat} (hD : D ≤ D') {x y : Dict DataArray}
    (h : TendWithin I w D x y) : TendWithin I w D' x y :=
  ⟨h.keys, fun q ix hix => le_trans (h.close q ix hix) (mul_le_mul_of_nonneg_right hD (hw q))⟩

theorem forall₂_getD {α β : Type} {r : α → β → Prop} {a : α} {b : β} (h0 : r a b) :
    ∀ {l : List α} {l' : List β}, List.Forall₂ r l l' → ∀ j, r (l.getD j a) (l'.getD j b) := by
  intro l l' h
  induction h with
  | nil => intro j; simpa using h0
  | cons hr _ ih =>
    intro j
    cases j with
    | zero => simpa using hr
    | succ j => simpa using ih j

/-- One step of two runs: how far apart the new values are. -/
theorem steps_within (hu : 0 ≤ u) (hfl : Rounds u fl) {conv' : DataArray → String → Except Err DataArray}
    (hw : ∀ q, 0 ≤ w q) {E D X T : Rat} (hD : 0 ≤ D) {order : Nat} {hist hist' : List (Dict DataArray)}
    (hh : List.Forall₂ (TendWithin I w D) hist hist') (hT0 : 0 ≤ T) (hT : ∀ t ∈ hist, TendSized I w T t)
    {x y n n' : EState DataArray} {dt : Int} (hxy : CloseStates I w E x y) (hX : StateSized I w X x)
    (h : performStepO (roundedArith fl conv) order hist x dt = .ok n)
    (h' : performStepO (roundedArith id conv') order hist' y dt = .ok n') :
    CloseStates I w (E + |seconds dt| * (20 / 3 * D) + ((1 + u) ^ 8 - 1) * (X + |seconds dt| * (20 / 3 * T))) n n' := by
  obtain ⟨m, hm, h1, h4, hk, hs⟩ := performStepO_spec h
  obtain ⟨m', hm', _, _, hk', hs'⟩ := performStepO_spec h'
  have hmm : m' = m := by rw [hm, hm', hh.length_eq]
  subst hmm
  have hrev : List.Forall₂ (TendWithin I w D) hist.reverse hist'.reverse := List.forall₂_reverse_iff.2 hh
  have hnil : TendWithin I w D [] [] := ⟨rfl, fun q ix _ => by
    show |(0 : Rat) - 0| ≤ _
    rw [sub_self, abs_zero]
    exact mul_nonneg hD (hw q)⟩
  have heads : ∀ {l l' : List (Dict DataArray)}, List.Forall₂ (TendWithin I w D) l l' →
      Dict.keys (l.head?.getD []) = Dict.keys (l'.head?.getD []) := by
    intro l l' hl
    cases hl with
    | nil => rfl
    | cons hr _ => exact hr.keys
  have hkeys : Dict.keys n = Dict.keys n' := by
    rw [hk, hk']
    split
    · rw [← List.head?_reverse, ← List.head?_reverse]
      exact heads hrev
    · exact heads hh
  refine ⟨fun q => by rw [hkeys], ?_⟩
  intro q a b ha hb ix hix
  obtain ⟨xa, ra, hxa, hra, _, _, hva⟩ := hs q (Dict.mem_keys_of_get? ha)
  obtain ⟨xb, rb, hxb, hrb, _, _, hvb⟩ := hs' q (Dict.mem_keys_of_get? hb)
  rw [ha] at hra
  rw [hb] at hrb
  cases hra
  cases hrb
  rw [hva ix, hvb ix, roundedAB_id h1 h4]
  generalize hpa : (fun j => tval (hist.reverse.getD j []) q ix) = pa
  generalize hpb : (fun j => tval (hist'.reverse.getD j []) q ix) = pb
  have dx : |xa.at' ix - xb.at' ix| ≤ E * w q := hxy.close q xa xb hxa hxb ix hix
  have sx : |xa.at' ix| ≤ X * w q := hX q xa hxa ix hix
  have dp : ∀ j, |pa j - pb j| ≤ D * w q := by
    intro j
    rw [← hpa, ← hpb]
    exact (forall₂_getD hnil hrev j).close q ix hix
  have sp : ∀ j, |pa j| ≤ T * w q := by
    intro j
    rw [← hpa]
    dsimp only
    rw [List.getD_eq_getElem?_getD]
    cases hj : hist.reverse[j]? with
    | none =>
      show |(0 : Rat)| ≤ _
      rw [abs_zero]
      exact mul_nonneg hT0 (hw q)
    | some t => exact hT t (List.mem_reverse.1 (List.mem_of_getElem? hj)) q ix hix
  have near := roundedAB_near hu hfl h1 h4 (xa.at' ix) (seconds dt) pa
  have near8 := (near.mono hu (show m' + 4 ≤ 8 by omega) (abSize_le h1 h4 sx sp)).err
  have lin := (roundedAB_near hu hfl h1 h4 (xa.at' ix - xb.at' ix) (seconds dt) (fun j => pa j - pb j)).size
  rw [← abFormula_sub h1 h4] at lin
  have lin' := le_trans lin (abSize_le h1 h4 dx dp)
  have tri := abs_add_le (roundedAB fl m' (xa.at' ix) (seconds dt) pa - abFormula m' (xa.at' ix) (seconds dt) pa)
    (abFormula m' (xa.at' ix) (seconds dt) pa - abFormula m' (xb.at' ix) (seconds dt) pb)
  rw [sub_add_sub_cancel] at tri
  calc _ ≤ _ := tri
    _ ≤ ((1 + u) ^ 8 - 1) * (X * w q + |seconds dt| * (20 / 3 * (T * w q))) +
        (E * w q + |seconds dt| * (20 / 3 * (D * w q))) := add_le_add near8 lin'
    _ = _ := by ring

theorem grownErrors_succ (k g E : Rat) (n : Nat) : grownErrors k g E (n + 1) = grownErrors k g (k * E + g) n := by
  unfold grownErrors
  rw [List.range_succ, List.map_append, List.sum_append, pow_succ]
  simp only [List.map_cons, List.map_nil, List.sum_cons, List.sum_nil]
  ring

theorem ab_runs_within (hu : 0 ≤ u) (hfl : Rounds u fl) (hw : ∀ q, 0 ≤ w q) {L e X T : Rat} (hL : 0 ≤ L) (he : 0 ≤ e)
    (hX : 0 ≤ X) (hT : 0 ≤ T) {conv' : DataArray → String → Except Err DataArray}
    {σ σ' : Type} {M : σ → σ' → Prop} {p : ProgOver σ DataArray} {p' : ProgOver σ' DataArray}
    (hp : Approximates I w X L e M (roundedArith fl conv) (roundedArith id conv') p p')
    (inProps outProps : PropDict) (inst : String) (tid : Bool)
    {b b' : Dict DataArray → EState DataArray → EState DataArray} (hb : BetweenWithin I w b b') (dt : Int) :
    ∀ (n : Nat) (E : Rat) (ab ab' : ABOver DataArray) (s : σ) (s' : σ') (x y : EState DataArray)
      (abf abf' : ABOver DataArray) (sf : σ) (sf' : σ') (xf yf : EState DataArray), 0 ≤ E →
      ab'.order = ab.order → List.Forall₂ (TendWithin I w (L * E + e)) ab.hist ab'.hist →
      (∀ t ∈ ab.hist, TendSized I w T t) → M s s' → CloseStates I w E x y →
      (∀ i < n, ∀ abi si xi, runOver (tsCallO (roundedArith fl conv) inProps outProps inst tid
          (abCallO (roundedArith fl conv) p)) b dt i ab s x = (abi, si, .ok xi) → StateSized I w X xi ∧
        ∀ r t, (p si xi dt).2 = .ok r → convertTendenciesO (roundedArith fl conv) xi r.1 = .ok t → TendSized I w T t) →
      runOver (tsCallO (roundedArith fl conv) inProps outProps inst tid (abCallO (roundedArith fl conv) p)) b dt n
        ab s x = (abf, sf, .ok xf) →
      runOver (tsCallO (roundedArith id conv') inProps outProps inst tid (abCallO (roundedArith id conv') p')) b' dt n
        ab' s' y = (abf', sf', .ok yf) →
      CloseStates I w (grownErrors (1 + |seconds dt| * (20 / 3) * L)
        (|seconds dt| * (20 / 3) * e + ((1 + u) ^ 8 - 1) * (X + |seconds dt| * (20 / 3) * T)) E n) xf yf := by
  intro n
  induction n with
  | zero =>
    intro E ab ab' s s' x y abf abf' sf sf' xf yf _ _ _ _ _ hxy _ h h'
    unfold runOver at h h'
    simp only [Prod.mk.injEq, Except.ok.injEq] at h h'
    rw [← h.2.2, ← h'.2.2]
    simpa [grownErrors] using hxy
  | succ n ih =>
    intro E ab ab' s s' x y abf abf' sf sf' xf yf hE hord hh hTt hM hxy hsize h h'
    obtain ⟨hXx, hTx⟩ := hsize 0 (by omega) ab s x rfl
    rw [grownErrors_succ]
    unfold runOver at h h'
    rcases hc : tsCallO (roundedArith fl conv) inProps outProps inst tid
      (abCallO (roundedArith fl conv) p) ab s x dt with ⟨ab1, s1, st1, er | ⟨d1, new⟩⟩
    · rw [hc] at h; cases h
    rcases hc' : tsCallO (roundedArith id conv') inProps outProps inst tid
      (abCallO (roundedArith id conv') p') ab' s' y dt with ⟨ab1', s1', st1', er | ⟨d1', new'⟩⟩
    · rw [hc'] at h'; cases h'
    rw [hc] at h
    rw [hc'] at h'
    dsimp only at h h'
    obtain ⟨d, m, hk, hnew⟩ := tsCallO_keeps hc
    obtain ⟨d', m', hk', hnew'⟩ := tsCallO_keeps hc'
    unfold abCallO at hk hk'
    simp only [Prod.mk.injEq] at hk hk'
    obtain ⟨a1, a2, a3, a4⟩ := hk
    obtain ⟨a1', a2', a3', a4'⟩ := hk'
    subst a3
    subst a3'
    obtain ⟨r, t, nn, hr, ht, hn, hm, _, hs1, ho1, _, hi1⟩ := abOver_ok (A := roundedArith fl conv) (prog := p)
      (ab := ab) (s := s) (state := x) (dt := dt) (ab' := ab1) (s' := s1) (diag := d) (new := m)
      (by rw [← a1, ← a2, ← a4])
    obtain ⟨r', t', nn', hr', ht', hn', hm', _, hs1', ho1', _, hi1'⟩ := abOver_ok (A := roundedArith id conv')
      (prog := p') (ab := ab') (s := s') (state := y) (dt := dt) (ab' := ab1') (s' := s1') (diag := d') (new := m')
      (by rw [← a1', ← a2', ← a4'])
    have htt : TendWithin I w (L * E + e) t t' := hp.tend s s' x y dt E r r' t t' hM hxy hE hXx hr hr' ht ht'
    have hD : 0 ≤ L * E + e := add_nonneg (mul_nonneg hL hE) he
    have hall : List.Forall₂ (TendWithin I w (L * E + e)) (ab.hist ++ [t]) (ab'.hist ++ [t']) :=
      List.rel_append hh (List.Forall₂.cons htt List.Forall₂.nil)
    have hallT : ∀ v ∈ ab.hist ++ [t], TendSized I w T v := by
      intro v hv
      rcases List.mem_append.1 hv with hv | hv
      · exact hTt v hv
      · rw [List.mem_singleton.1 hv]
        exact hTx r t hr ht
    rw [hord] at hn'
    have hstep := steps_within hu hfl hw hD hall hT hallT hxy hXx hn hn'
    have hγ : 0 ≤ (1 + u) ^ 8 - 1 := by have := one_le_pow hu 8; linarith
    have hdt := abs_nonneg (seconds dt)
    have hE' : E ≤ E + |seconds dt| * (20 / 3 * (L * E + e)) +
        ((1 + u) ^ 8 - 1) * (X + |seconds dt| * (20 / 3 * T)) := by
      have i1 : 0 ≤ |seconds dt| * (20 / 3 * (L * E + e)) := mul_nonneg hdt (mul_nonneg (by norm_num) hD)
      have i2 : 0 ≤ ((1 + u) ^ 8 - 1) * (X + |seconds dt| * (20 / 3 * T)) :=
        mul_nonneg hγ (add_nonneg hX (mul_nonneg hdt (mul_nonneg (by norm_num) hT)))
      linarith
    have heq : E + |seconds dt| * (20 / 3 * (L * E + e)) +
        ((1 + u) ^ 8 - 1) * (X + |seconds dt| * (20 / 3 * T)) =
        (1 + |seconds dt| * (20 / 3) * L) * E +
          (|seconds dt| * (20 / 3) * e + ((1 + u) ^ 8 - 1) * (X + |seconds dt| * (20 / 3) * T)) := by ring
    rw [heq] at hstep hE'
    generalize hEn : (1 + |seconds dt| * (20 / 3) * L) * E +
          (|seconds dt| * (20 / 3) * e + ((1 + u) ^ 8 - 1) * (X + |seconds dt| * (20 / 3) * T)) = E1 at *
    have hnewW : CloseStates I w E1 new new' := by
      rw [hnew, hnew', hm, hm']
      exact hxy.copy hw hE' (hxy.copy hw hE' hstep)
    have hDm : L * E + e ≤ L * E1 + e := by
      have := mul_le_mul_of_nonneg_left hE' hL
      linarith
    have hlen : (ab.hist ++ [t]).length = (ab'.hist ++ [t']).length := hall.length_eq
    refine ih E1 ab1 ab1' s1 s1' (b d1 new) (b' d1' new') abf abf' sf sf' xf yf (le_trans hE hE')
      (by rw [ho1, ho1', hord]) ?_ ?_ ?_ (hb E1 d1 d1' new new' hnewW) ?_ h h'
    · rw [hi1, hi1', ← hlen, hord]
      have hmono : List.Forall₂ (TendWithin I w (L * E1 + e)) (ab.hist ++ [t]) (ab'.hist ++ [t']) :=
        List.Forall₂.imp (fun _ _ h => h.mono hw hDm) hall
      split
      · revert hmono
        generalize ab.hist ++ [t] = l
        generalize ab'.hist ++ [t'] = l'
        intro hmono
        cases hmono with
        | nil => exact List.Forall₂.nil
        | cons _ hl => exact hl
      · exact hmono
    · rw [hi1]
      split
      · exact fun v hv => hallT v (List.mem_of_mem_tail hv)
      · exact hallT
    · rw [hs1, hs1']
      exact hp.world s s' x y dt E hM hxy
    · intro i hi abi si xi hrun
      refine hsize (i + 1) (by omega) abi si xi ?_
      unfold runOver
      rw [hc]
      exact hrun

/-- C110: a run of `n` steps of an AdamsBashforth of any order in rounded arithmetic, whose values are at most `X`
and tendencies at most `T`, ends within `(sum of k^i for i < n) * g` of the run in exact arithmetic from the same
state, where `k = 1 + 20/3 dt L` and `g = 20/3 dt e + ((1 + u)^8 - 1) (X + 20/3 dt T)`; `L` and `e` say how well the
components are computed. -/
theorem ab_run_rounding (hu : 0 ≤ u) (hfl : Rounds u fl) (conv : DataArray → String → Except Err DataArray)
    (R : Registry) (hw : ∀ q, 0 ≤ w q) {L e X T : Rat} (hL : 0 ≤ L) (he : 0 ≤ e)
    (hX : 0 ≤ X) (hT : 0 ≤ T)
    {σ σ' : Type} {M : σ → σ' → Prop} {p : ProgOver σ DataArray} {p' : ProgOver σ' DataArray}
    (hp : Approximates I w X L e M (roundedArith fl conv) (dataArrayArith R) p p')
    (inProps outProps : PropDict) (inst : String) (tid : Bool)
    {b b' : Dict DataArray → EState DataArray → EState DataArray} (hb : BetweenWithin I w b b') (dt : Int) (n : Nat)
    (order : Nat) (s : σ) (s' : σ') (hM : M s s') (x : EState DataArray)
    {abf abf' : ABOver DataArray} {sf : σ} {sf' : σ'} {xf yf : EState DataArray}
    (hsize : ∀ i < n, ∀ abi si xi, runOver (tsCallO (roundedArith fl conv) inProps outProps inst tid
          (abCallO (roundedArith fl conv) p)) b dt i { order := order } s x = (abi, si, .ok xi) → StateSized I w X xi ∧
        ∀ r t, (p si xi dt).2 = .ok r → convertTendenciesO (roundedArith fl conv) xi r.1 = .ok t → TendSized I w T t)
    (h : runOver (tsCallO (roundedArith fl conv) inProps outProps inst tid (abCallO (roundedArith fl conv) p)) b dt n
        { order := order } s x = (abf, sf, .ok xf))
    (h' : runOver (tsCallO (dataArrayArith R) inProps outProps inst tid (abCallO (dataArrayArith R) p')) b' dt n
        { order := order } s' x = (abf', sf', .ok yf)) :
    CloseStates I w (((List.range n).map fun i => (1 + |seconds dt| * (20 / 3) * L) ^ i).sum *
      (|seconds dt| * (20 / 3) * e + ((1 + u) ^ 8 - 1) * (X + |seconds dt| * (20 / 3) * T))) xf yf := by
  rw [← roundedArith_id R] at hp h'
  have h0 : CloseStates I w 0 x x := ⟨fun _ => Iff.rfl, fun q a b ha hb ix _ => by
    rw [ha] at hb
    cases hb
    rw [sub_self, abs_zero, zero_mul]⟩
  have := ab_runs_within hu hfl hw hL he hX hT hp inProps outProps inst tid hb dt n 0 { order := order }
    { order := order } s s' x x abf abf' sf sf' xf yf (le_refl _) rfl List.Forall₂.nil (fun t ht => by cases ht) hM h0
    hsize h h'
  unfold grownErrors at this
  rwa [mul_zero, zero_add] at this

/-! ## Small tendencies are lost -/

/-- a state with one temperature -/
def Demo.scalarT (c : Rat) : EState DataArray := [("T", .da ⟨[], ⟨[], fun _ => c⟩, [("units", "K")]⟩)]

/-- warms by 2^-46 K per second -/
def Demo.trickle : ProgOver Unit DataArray :=
  fun s _ _ => (s, .ok ([("T", ⟨[], ⟨[], fun _ => 1 / 2 ^ 46⟩, []⟩)], []))

theorem Demo.trickle_add (fl : Rat → Rat) (conv : DataArray → String → Except Err DataArray) (c v d : Rat)
    (m : Dict String) :
    (roundedArith fl conv).add ⟨[], ⟨[], fun _ => c⟩, m⟩ ((roundedArith fl conv).smul d ⟨[], ⟨[], fun _ => v⟩, []⟩) =
      .ok ⟨[], ⟨[], fun _ => fl (c + fl (fl d * v))⟩, m⟩ := by
  unfold roundedArith DataArray.add DataArray.binop
  dsimp only
  rw [if_pos (by intro d hd; cases hd)]
  rfl

theorem Demo.trickle_step (fl : Rat → Rat) (conv : DataArray → String → Except Err DataArray) (c : Rat)
    {ts : Option Int} (hts : ts = none ∨ ts = some 1000000) :
    tsCallO (roundedArith fl conv) [] [] "" false (abCallO (roundedArith fl conv) Demo.trickle)
      { order := 1, timestep := ts } () (Demo.scalarT c) 1000000 =
    ({ order := 1, timestep := some 1000000 }, (), Demo.scalarT c,
      .ok ([], Demo.scalarT (fl (c + fl (fl (seconds 1000000) * (1 / 2 ^ 46)))))) := by
  have hstep : performStepO (roundedArith fl conv) 1 [[("T", ⟨[], ⟨[], fun _ => 1 / 2 ^ 46⟩, []⟩)]] (Demo.scalarT c)
      1000000 = .ok (Demo.scalarT (fl (c + fl (fl (seconds 1000000) * (1 / 2 ^ 46))))) := by
    show ((roundedArith fl conv).add ⟨[], ⟨[], fun _ => c⟩, [("units", "K")]⟩
      ((roundedArith fl conv).smul (seconds 1000000) ⟨[], ⟨[], fun _ => 1 / 2 ^ 46⟩, []⟩) >>= fun v =>
        (Except.ok [] : Except Err (EState DataArray)) >>= fun rest => .ok (("T", Entry.da v) :: rest)) = _
    rw [Demo.trickle_add]
    rfl
  have hcall : ABOver.call (roundedArith fl conv) Demo.trickle { order := 1, timestep := ts } () (Demo.scalarT c) 1000000
      = ({ order := 1, timestep := some 1000000 }, (),
        .ok ([], Demo.scalarT (fl (c + fl (fl (seconds 1000000) * (1 / 2 ^ 46)))))) := by
    unfold ABOver.call
    rw [if_pos hts]
    have hconv : convertTendenciesO (roundedArith fl conv) (Demo.scalarT c)
        [("T", ⟨[], ⟨[], fun _ => 1 / 2 ^ 46⟩, []⟩)] = .ok [("T", ⟨[], ⟨[], fun _ => 1 / 2 ^ 46⟩, []⟩)] := rfl
    simp only [Demo.trickle, hconv, List.nil_append, hstep]
    rfl
  unfold tsCallO abCallO
  dsimp only
  rw [hcall]
  rfl

theorem Demo.trickle_run (fl : Rat → Rat) (conv : DataArray → String → Except Err DataArray) (f : Nat → Rat)
    (hf : ∀ n, fl (f n + fl (fl (seconds 1000000) * (1 / 2 ^ 46))) = f (n + 1)) :
    ∀ (n i : Nat) {ts : Option Int}, ts = none ∨ ts = some 1000000 →
      (runOver (tsCallO (roundedArith fl conv) [] [] "" false (abCallO (roundedArith fl conv) Demo.trickle))
        (fun _ s => s) 1000000 n { order := 1, timestep := ts } () (Demo.scalarT (f i))).2.2 =
        .ok (Demo.scalarT (f (i + n))) := by
  intro n
  induction n with
  | zero => intro i ts _; rfl
  | succ n ih =>
    intro i ts hts
    unfold runOver
    rw [Demo.trickle_step fl conv _ hts, hf]
    dsimp only
    rw [ih (i + 1) (Or.inr rfl), show i + 1 + n = i + (n + 1) by omega]

/-- Bounds for runs must grow with the number of steps: in `float64` arithmetic a temperature of 300 K that is
warmed by 2^-46 K in every step never changes, however many steps are taken. -/
theorem ab_can_stall (R : Registry) (n : Nat) :
    (runOver (tsCallO (roundedArith binary64 Demo.asIs) [] [] "" false
      (abCallO (roundedArith binary64 Demo.asIs) Demo.trickle)) (fun _ s => s) 1000000 n { order := 1 } ()
      (Demo.scalarT 300)).2.2 = .ok (Demo.scalarT 300) ∧
    (runOver (tsCallO (dataArrayArith R) [] [] "" false (abCallO (dataArrayArith R) Demo.trickle)) (fun _ s => s)
      1000000 n { order := 1 } () (Demo.scalarT 300)).2.2 = .ok (Demo.scalarT (300 + n / 2 ^ 46)) := by
  constructor
  · exact Demo.trickle_run binary64 Demo.asIs (fun _ => 300) (fun _ => by decide +kernel) n 0 (Or.inl rfl)
  · rw [← roundedArith_id R]
    have := Demo.trickle_run id (fun a units => a.toUnits R units) (fun i => 300 + i / 2 ^ 46)
      (fun i => by
        have hs : seconds 1000000 = 1 := by decide +kernel
        rw [hs]
        simp only [id]
        push_cast
        ring) n 0 (ts := none) (Or.inl rfl)
    simpa using this

/-! ## Non-vacuity -/

/-- `dT/dt = -T / 10`, computed with `A` -/
def Demo.fades (A : Arith DataArray) : ProgOver Unit DataArray :=
  fun s state _ => (s, EState.da state "T" >>= fun a => .ok ([("T", A.setAttrs (A.smul (-1 / 10) a) [])], []))

/-- a component that is Lipschitz continuous and computed with two roundings meets the hypothesis about components -/
theorem Demo.fades_approximates (hu : 0 ≤ u) (hfl : Rounds u fl) (R : Registry) {X : Rat} (hX0 : 0 ≤ X) (hw : ∀ q, 0 ≤ w q) :
    Approximates I w X (1 / 10) (((1 + u) ^ 2 - 1) * (1 / 10 * X)) (fun _ _ => True) (roundedArith fl conv)
      (dataArrayArith R) (Demo.fades (roundedArith fl conv)) (Demo.fades (dataArrayArith R)) where
  world := fun _ _ _ _ _ _ _ _ => trivial
  tend := by
    intro s s' x y dt E r r' t t' _ hxy hE hX hr hr' ht ht'
    obtain ⟨a, ha, hr⟩ := Exc.bind_ok_iff.1 hr
    obtain ⟨b, hb, hr'⟩ := Exc.bind_ok_iff.1 hr'
    cases hr
    cases hr'
    have ht : [("T", (roundedArith fl conv).setAttrs ((roundedArith fl conv).smul (-1 / 10) a) [])] = t := by
      cases ht; rfl
    have ht' : [("T", (dataArrayArith R).setAttrs ((dataArrayArith R).smul (-1 / 10) b) [])] = t' := by
      cases ht'; rfl
    subst ht
    subst ht'
    refine ⟨rfl, fun q ix hix => ?_⟩
    unfold tval
    simp only [Dict.get?_cons]
    by_cases hq : "T" = q
    · subst hq
      rw [if_pos rfl, if_pos rfl]
      show |fl (fl (-1 / 10) * a.at' ix) - -1 / 10 * b.at' ix| ≤ _
      have n1 := (Near.exact (u := u) (a.at' ix)).smul hu hfl (-1 / 10)
      have hc : |(-1 / 10 : Rat)| = 1 / 10 := by norm_num [abs_of_neg]
      rw [hc] at n1
      have n2 := (n1.mono hu (le_refl _) (mul_le_mul_of_nonneg_left
        (hX "T" a (EState.da_ok.1 ha) ix hix) (by norm_num))).err
      have n3 := hxy.close "T" a b (EState.da_ok.1 ha) (EState.da_ok.1 hb) ix hix
      have n4 : |-1 / 10 * a.at' ix - -1 / 10 * b.at' ix| = 1 / 10 * |a.at' ix - b.at' ix| := by
        rw [← mul_sub, abs_mul, hc]
      have n5 := abs_add_le (fl (fl (-1 / 10) * a.at' ix) - -1 / 10 * a.at' ix)
        (-1 / 10 * a.at' ix - -1 / 10 * b.at' ix)
      rw [sub_add_sub_cancel, n4] at n5
      rw [zero_add] at n2
      calc _ ≤ _ := n5
        _ ≤ ((1 + u) ^ 2 - 1) * (1 / 10 * (X * w "T")) + 1 / 10 * (E * w "T") := by linarith
        _ = _ := by ring
    · rw [if_neg hq, if_neg hq]
      show |(0 : Rat) - 0| ≤ _
      rw [sub_self, abs_zero]
      have h2 := one_le_pow hu 2
      exact mul_nonneg (add_nonneg (mul_nonneg (by norm_num) hE)
        (mul_nonneg (by linarith) (mul_nonneg (by norm_num) hX0))) (hw q)

/-- runs in rounded and exact arithmetic return, and differ -/
example : Exc.test (runOver (tsCallO (roundedArith binary64 Demo.asIs) [] [] "" false
      (abCallO (roundedArith binary64 Demo.asIs) (Demo.fades (roundedArith binary64 Demo.asIs)))) (fun _ s => s)
      1000000 2 { order := 2 } () (Demo.scalarT 7)).2.2
      (fun s => Demo.valueIn s "T" (fun _ => 0) ≠ 1141 / 200) = true ∧
    Exc.test (runOver (tsCallO (dataArrayArith Demo.reg) [] [] "" false
      (abCallO (dataArrayArith Demo.reg) (Demo.fades (dataArrayArith Demo.reg)))) (fun _ s => s)
      1000000 2 { order := 2 } () (Demo.scalarT 7)).2.2
      (fun s => Demo.valueIn s "T" (fun _ => 0) = 1141 / 200) = true := by
  decide +kernel

/-- the one element of the temperature -/
def Demo.origin (ix : String → Nat) : Prop := ix = fun _ => 0

/-- sizes in a state, as a test -/
def Demo.small (x : EState DataArray) : Bool :=
  decide (Dict.keys x = ["T"]) && decide (|Demo.valueIn x "T" (fun _ => 0)| ≤ 7) &&
    decide (|binary64 (binary64 (-1 / 10) * Demo.valueIn x "T" (fun _ => 0))| ≤ 1)

theorem Demo.small_sized {x : EState DataArray} (h : Demo.small x = true) :
    StateSized Demo.origin (fun _ => 1) 7 x ∧
      ∀ r t, (Demo.fades (roundedArith binary64 Demo.asIs) () x 1000000).2 = .ok r →
        convertTendenciesO (roundedArith binary64 Demo.asIs) x r.1 = .ok t → TendSized Demo.origin (fun _ => 1) 1 t := by
  unfold Demo.small at h
  simp only [Bool.and_eq_true, decide_eq_true_eq] at h
  obtain ⟨⟨h1, h2⟩, h3⟩ := h
  have hval : ∀ a, Dict.get? x "T" = some (.da a) → Demo.valueIn x "T" (fun _ => 0) = a.at' (fun _ => 0) := by
    intro a ha
    unfold Demo.valueIn
    rw [ha]
  refine ⟨?_, ?_⟩
  · intro q a ha ix hix
    have hq : q ∈ Dict.keys x := Dict.mem_keys_of_get? ha
    rw [h1, List.mem_singleton] at hq
    subst hq
    rw [show ix = fun _ => 0 from hix, ← hval a ha]
    simpa using h2
  · intro r t hr ht q ix hix
    obtain ⟨a, ha, hr⟩ := Exc.bind_ok_iff.1 hr
    cases hr
    have ht : [("T", (roundedArith binary64 Demo.asIs).setAttrs ((roundedArith binary64 Demo.asIs).smul (-1 / 10) a) [])]
        = t := by cases ht; rfl
    subst ht
    rw [show ix = fun _ => 0 from hix]
    unfold tval
    simp only [Dict.get?_cons]
    by_cases hq : "T" = q
    · rw [if_pos hq]
      show |binary64 (binary64 (-1 / 10) * a.at' (fun _ => 0))| ≤ _
      rw [← hval a (EState.da_ok.1 ha)]
      simpa using h3
    · rw [if_neg hq]
      show |(0 : Rat)| ≤ _
      norm_num

/-- two steps of order 2 in `float64` arithmetic, all hypotheses of `ab_run_rounding` met -/
example {abf abf' : ABOver DataArray} {xf yf : EState DataArray}
    (h : runOver (tsCallO (roundedArith binary64 Demo.asIs) [] [] "" false
      (abCallO (roundedArith binary64 Demo.asIs) (Demo.fades (roundedArith binary64 Demo.asIs)))) (fun _ s => s)
      1000000 2 { order := 2 } () (Demo.scalarT 7) = (abf, (), .ok xf))
    (h' : runOver (tsCallO (dataArrayArith Demo.reg) [] [] "" false
      (abCallO (dataArrayArith Demo.reg) (Demo.fades (dataArrayArith Demo.reg)))) (fun _ s => s)
      1000000 2 { order := 2 } () (Demo.scalarT 7) = (abf', (), .ok yf)) :
    CloseStates Demo.origin (fun _ => 1) (1 / 10 ^ 13) xf yf := by
  have := ab_run_rounding (I := Demo.origin) (w := fun _ => 1) (u := 2 ^ (-53 : Int)) (by positivity) binary64_rounds
    Demo.asIs Demo.reg (fun _ => by norm_num) (L := 1 / 10)
    (e := ((1 + 2 ^ (-53 : Int)) ^ 2 - 1) * (1 / 10 * 7)) (X := 7) (T := 1)
    (by norm_num) (by decide +kernel) (by norm_num) (by norm_num)
    (Demo.fades_approximates (by positivity) binary64_rounds Demo.reg (by norm_num) (fun _ => by norm_num))
    [] [] "" false (fun _ _ _ _ _ h => h) 1000000 2 2 () () trivial (Demo.scalarT 7)
    (by
      intro i hi abi si xi hrun
      apply Demo.small_sized
      rcases (by omega : i = 0 ∨ i = 1) with rfl | rfl
      · cases hrun
        decide +kernel
      · have ht : Exc.test (runOver (tsCallO (roundedArith binary64 Demo.asIs) [] [] "" false
          (abCallO (roundedArith binary64 Demo.asIs) (Demo.fades (roundedArith binary64 Demo.asIs)))) (fun _ s => s)
          1000000 1 { order := 2 } () (Demo.scalarT 7)).2.2 Demo.small = true := by decide +kernel
        rw [hrun] at ht
        exact ht) h h'
  refine ⟨this.keys, fun q a b ha hb ix hix => le_trans (this.close q a b ha hb ix hix) ?_⟩
  decide +kernel

end Verif

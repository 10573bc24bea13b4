import Verif.Spec.PointRuns
import Mathlib.Tactic.Linarith
import Mathlib.Tactic.FieldSimp
import Mathlib.Tactic.Positivity
import Mathlib.Analysis.SpecificLimits.Basic
import Mathlib.Analysis.Real.Sqrt
/-!
# C98: what the schemes do to a distance that decays

The schemes for `y' = (E - y) / T`, with `z` the ratio of the timestep and `T`.
-/

namespace Verif

/-! ## The distance from equilibrium -/

theorem abPast_getD (k : Nat) (z : Rat) (n j : Nat) (h : j ≤ n) : (abPast k z n).getD j 0 = abDecay k z (n - j) := by
  induction n generalizing j with
  | zero =>
    have : j = 0 := by omega
    subst this; rfl
  | succ n ih =>
    cases j with
    | zero => rfl
    | succ j =>
      have e : (abPast k z (n + 1)).getD (j + 1) 0 = (abPast k z n).getD j 0 := rfl
      rw [e, ih j (by omega), show n + 1 - (j + 1) = n - j by omega]

theorem abFormula_ext {m : Nat} {x dt : Rat} {f g : Nat → Rat} (h : ∀ j < m, f j = g j) :
    abFormula m x dt f = abFormula m x dt g := by
  unfold abFormula
  rw [List.map_congr_left fun j hj => by rw [h j (List.mem_range.1 hj)]]

theorem abDecay_zero (k : Nat) (z : Rat) : abDecay k z 0 = 1 := rfl

theorem abDecay_succ (k : Nat) (z : Rat) (n : Nat) :
    abDecay k z (n + 1) = abFormula (min k (n + 1)) (abDecay k z n) z (fun j => -abDecay k z (n - j)) := by
  refine (abFormula_ext fun j hj => ?_ : abFormula (min k (n + 1)) ((abPast k z n).getD 0 0) z _ = _)
  rw [abPast_getD k z n j (by omega)]

/-- Adams-Bashforth: the factor by which the distance has changed. -/
theorem ab_distance (k : Nat) (h r E y0 : Rat) :
    IsAdamsBashforth k h (fun x => r * (E - x)) (fun n => E + abDecay k (h * r) n * (y0 - E)) := by
  intro i
  show E + abDecay k (h * r) (i + 1) * (y0 - E) = _
  rw [abDecay_succ]
  unfold abFormula
  dsimp only
  have e : ((List.range (min k (i + 1))).map fun j => abCoef (min k (i + 1)) j *
      (r * (E - (E + abDecay k (h * r) (i - j) * (y0 - E))))).sum =
      r * (y0 - E) * ((List.range (min k (i + 1))).map fun j => abCoef (min k (i + 1)) j *
        -abDecay k (h * r) (i - j)).sum := by
    rw [← List.sum_map_mul_left]
    congr 1
    exact List.map_congr_left fun j _ => by ring
  rw [e]
  ring

/-- Leapfrog. -/
theorem lf_distance (ν α h r E y0 : Rat) :
    IsLeapfrog ν α h (fun x => r * (E - x))
      (fun n => match n with
        | 0 => y0
        | n + 1 => E + (lfPair ν α (h * r) n).1 * (y0 - E))
      (fun n => E + lfDecay ν α (h * r) n * (y0 - E)) where
  first := by
    refine ⟨?_, ?_⟩
    · show E + 1 * (y0 - E) = E + 1 * (y0 - E)
      rfl
    · show E + (1 - h * r) * (y0 - E) = E + 1 * (y0 - E) + h * (r * (E - (E + 1 * (y0 - E))))
      ring
  later := by
    intro i hi
    obtain ⟨i, rfl⟩ : ∃ j, i = j + 1 := ⟨i - 1, by omega⟩
    show E + (lfPair ν α (h * r) (i + 1)).1 * (y0 - E) = E + (lfPair ν α (h * r) i).2 * (y0 - E) + _ ∧
      E + (lfPair ν α (h * r) (i + 1)).2 * (y0 - E) = _
    dsimp only [lfDecay]
    unfold filterDisplacement
    constructor
    · show E + ((lfPair ν α (h * r) i).2 + α * filterDisplacement ν (lfPair ν α (h * r) i).1 (lfPair ν α (h * r) i).2
        ((lfPair ν α (h * r) i).1 - 2 * (h * r) * (lfPair ν α (h * r) i).2)) * (y0 - E) = _
      unfold filterDisplacement
      ring
    · show E + ((lfPair ν α (h * r) i).1 - 2 * (h * r) * (lfPair ν α (h * r) i).2 -
        (1 - α) * filterDisplacement ν (lfPair ν α (h * r) i).1 (lfPair ν α (h * r) i).2
        ((lfPair ν α (h * r) i).1 - 2 * (h * r) * (lfPair ν α (h * r) i).2)) * (y0 - E) = _
      unfold filterDisplacement
      ring

/-- SSPRungeKutta. -/
theorem rk_distance (three : Bool) (h r E y0 : Rat) (n : Nat) :
    (rkStep three h (fun x => r * (E - x)))^[n] y0 = E + rkDecay three (h * r) ^ n * (y0 - E) := by
  induction n with
  | zero => simp
  | succ n ih =>
    rw [Function.iterate_succ_apply', ih, pow_succ]
    unfold rkStep rkDecay
    cases three with
    | true =>
      simp only [if_true]
      ring
    | false =>
      simp only [Bool.false_eq_true, if_false]
      ring

/-! ## Sequences -/

theorem Vanishes.of_le {y w : Nat → Rat} (h : Vanishes w) (hle : ∀ n, |y n| ≤ |w n|) : Vanishes y := by
  intro ε hε
  obtain ⟨N, hN⟩ := h ε hε
  exact ⟨N, fun n hn => lt_of_le_of_lt (hle n) (hN n hn)⟩

theorem Vanishes.mul {y : Nat → Rat} (h : Vanishes y) (c : Rat) : Vanishes (fun n => y n * c) := by
  intro ε hε
  by_cases hc : c = 0
  · exact ⟨0, fun n _ => by simp [hc, hε]⟩
  · have hc' : 0 < |c| := abs_pos.2 hc
    obtain ⟨N, hN⟩ := h (ε / |c|) (div_pos hε hc')
    refine ⟨N, fun n hn => ?_⟩
    rw [abs_mul]
    have := hN n hn
    rwa [lt_div_iff₀ hc'] at this

theorem Unbounded.mul {y : Nat → Rat} (h : Unbounded y) {c : Rat} (hc : c ≠ 0) : Unbounded (fun n => y n * c) := by
  intro B
  have hc' : 0 < |c| := abs_pos.2 hc
  obtain ⟨n, hn⟩ := h (B / |c|)
  refine ⟨n, ?_⟩
  rw [abs_mul]
  rwa [div_lt_iff₀ hc'] at hn

theorem pow_small {c : Rat} (h1 : c < 1) {ε : Rat} (hε : 0 < ε) : ∃ N, c ^ N < ε :=
  exists_pow_lt_of_lt_one hε h1

theorem vanishes_pow {c : Rat} (h : |c| < 1) : Vanishes (fun n => c ^ n) := by
  intro ε hε
  obtain ⟨N, hN⟩ := pow_small h hε
  refine ⟨N, fun n hn => ?_⟩
  rw [abs_pow]
  exact lt_of_le_of_lt (pow_le_pow_of_le_one (abs_nonneg c) h.le hn) hN

/-- A sequence whose next value is at most `c < 1` times the largest of the last `w`. -/
theorem vanishes_of_contraction {y : Nat → Rat} {c : Rat} {w N : Nat} (h0 : 0 ≤ c) (h1 : c < 1)
    (h : ∀ n ≥ N, ∀ M, 0 ≤ M → (∀ j < w, |y (n - j)| ≤ M) → |y (n + 1)| ≤ c * M) (hw : w ≤ N + 1) : Vanishes y := by
  -- a bound for the values up to N
  have hb : ∀ K : Nat, ∃ M, 0 ≤ M ∧ ∀ n ≤ K, |y n| ≤ M := by
    intro K
    induction K with
    | zero => exact ⟨|y 0|, abs_nonneg _, fun n hn => by rw [Nat.le_zero.1 hn]⟩
    | succ K ih =>
      obtain ⟨M, hM, hK⟩ := ih
      refine ⟨max M |y (K + 1)|, le_max_of_le_left hM, fun n hn => ?_⟩
      rcases Nat.lt_or_ge n (K + 1) with h | h
      · exact (hK n (by omega)).trans (le_max_left _ _)
      · rw [show n = K + 1 by omega]; exact le_max_right _ _
  obtain ⟨M, hM, hN⟩ := hb N
  have hall : ∀ n, |y n| ≤ M := by
    intro n
    induction n using Nat.strongRecOn with
    | ind n ih =>
      rcases Nat.lt_or_ge N n with hn | hn
      · obtain ⟨m, rfl⟩ : ∃ m, n = m + 1 := ⟨n - 1, by omega⟩
        have := h m (by omega) M hM (fun j _ => ih (m - j) (by omega))
        nlinarith
      · exact hN n hn
  have hp : ∀ p n, N + p * (w + 1) ≤ n → |y n| ≤ c ^ p * M := by
    intro p
    induction p with
    | zero => intro n _; simpa using hall n
    | succ p ih =>
      intro n hn
      have hn' : N + p * (w + 1) + (w + 1) ≤ n := by
        have : (p + 1) * (w + 1) = p * (w + 1) + (w + 1) := by ring
        omega
      obtain ⟨m, rfl⟩ : ∃ m, n = m + 1 := ⟨n - 1, by omega⟩
      have := h m (by omega) (c ^ p * M) (mul_nonneg (pow_nonneg h0 p) hM) (fun j hj => ih (m - j) (by omega))
      rw [pow_succ]
      linarith [this, mul_comm (c ^ p * M) c, mul_assoc (c ^ p) c M, mul_comm c M, mul_assoc (c ^ p) M c]
  intro ε hε
  obtain ⟨p, hpow⟩ := pow_small h1 (ε := ε / (M + 1)) (by positivity)
  refine ⟨N + p * (w + 1), fun n hn => lt_of_le_of_lt (hp p n hn) ?_⟩
  rw [lt_div_iff₀ (by positivity)] at hpow
  have : 0 ≤ c ^ p := pow_nonneg h0 p
  nlinarith

/-! ## SSPRungeKutta and Euler's method -/

theorem rkDecay_lt {three : Bool} {z : Rat} (h0 : 0 < z) (h2 : z < if three then 5 / 2 else 2) : |rkDecay three z| < 1 := by
  unfold rkDecay
  rw [abs_lt]
  cases three with
  | true =>
    simp only [if_true] at h2 ⊢
    constructor
    · nlinarith [mul_pos h0 h0, mul_pos h0 (sub_pos.2 h2), mul_nonneg h0.le (sq_nonneg (z - 5 / 2)), sq_nonneg (z - 1)]
    · nlinarith [mul_pos h0 h0, mul_pos h0 (mul_pos h0 h0), mul_nonneg h0.le (sq_nonneg (z - 3 / 2))]
  | false =>
    simp only [Bool.false_eq_true, if_false] at h2 ⊢
    constructor <;> nlinarith [mul_pos h0 h0, mul_pos h0 (sub_pos.2 h2), sq_nonneg (z - 1)]

/-- With a timestep of at most the timescale, the distance keeps its sign. -/
theorem rkDecay_pos {three : Bool} {z : Rat} (h0 : 0 < z) (h1 : z ≤ 1) : 0 < rkDecay three z := by
  unfold rkDecay
  cases three with
  | true =>
    simp only [if_true]
    nlinarith [mul_pos h0 h0, mul_nonneg h0.le (sub_nonneg.2 h1), mul_nonneg (mul_pos h0 h0).le (sub_nonneg.2 h1)]
  | false =>
    simp only [Bool.false_eq_true, if_false]
    nlinarith [mul_pos h0 h0]

theorem abDecay_one (z : Rat) (n : Nat) : abDecay 1 z n = (1 - z) ^ n := by
  induction n with
  | zero => simp [abDecay_zero]
  | succ n ih =>
    rw [abDecay_succ, show min 1 (n + 1) = 1 by omega, ih, pow_succ]
    simp [abFormula, abCoef, List.range_succ, ih]
    ring

/-! ## Adams-Bashforth -/

theorem abDecay_two (z : Rat) (n : Nat) : abDecay 2 z (n + 2) =
    abDecay 2 z (n + 1) - z * (3 / 2 * abDecay 2 z (n + 1) - 1 / 2 * abDecay 2 z n) := by
  rw [abDecay_succ, show min 2 (n + 1 + 1) = 2 by omega]
  simp only [abFormula, abCoef, List.range_succ, List.range_zero, List.nil_append, List.map_cons, List.map_nil,
    List.cons_append, List.sum_cons, List.sum_nil, Nat.sub_zero, Nat.add_sub_cancel]
  ring

theorem abDecay_three (z : Rat) (n : Nat) : abDecay 3 z (n + 3) =
    abDecay 3 z (n + 2) - z * (23 / 12 * abDecay 3 z (n + 2) - 16 / 12 * abDecay 3 z (n + 1) + 5 / 12 * abDecay 3 z n) := by
  rw [abDecay_succ, show min 3 (n + 2 + 1) = 3 by omega]
  simp only [abFormula, abCoef, List.range_succ, List.range_zero, List.nil_append, List.map_cons, List.map_nil,
    List.cons_append, List.sum_cons, List.sum_nil, Nat.sub_zero, show n + 2 - 1 = n + 1 from rfl, Nat.add_sub_cancel]
  ring

theorem abDecay_four (z : Rat) (n : Nat) : abDecay 4 z (n + 4) =
    abDecay 4 z (n + 3) - z * (55 / 24 * abDecay 4 z (n + 3) - 59 / 24 * abDecay 4 z (n + 2) +
      37 / 24 * abDecay 4 z (n + 1) - 9 / 24 * abDecay 4 z n) := by
  rw [abDecay_succ, show min 4 (n + 3 + 1) = 4 by omega]
  simp only [abFormula, abCoef, List.range_succ, List.range_zero, List.nil_append, List.map_cons, List.map_nil,
    List.cons_append, List.sum_cons, List.sum_nil, Nat.sub_zero, show n + 3 - 1 = n + 2 from rfl,
    show n + 3 - 2 = n + 1 from rfl, Nat.add_sub_cancel]
  ring

/-- Timesteps, as a part of the timescale, below which the distance is shown to vanish. -/
def abLimit (k : Nat) : Rat := if k = 1 then 2 else if k = 2 then 1 else if k = 3 then 6 / 11 else 1 / 20

theorem abDecay_vanishes {k : Nat} (h1 : 1 ≤ k) (h4 : k ≤ 4) {z : Rat} (h0 : 0 < z) (hz : z < abLimit k) :
    Vanishes (abDecay k z) := by
  rcases (by omega : k = 1 ∨ k = 2 ∨ k = 3 ∨ k = 4) with rfl | rfl | rfl | rfl
  · have : abDecay 1 z = fun n => (1 - z) ^ n := funext (abDecay_one z)
    rw [this]
    have hz : z < 2 := hz
    exact vanishes_pow (by rw [abs_lt]; constructor <;> linarith)
  · have hz : z < 1 := hz
    refine vanishes_of_contraction (c := |1 - 3 / 2 * z| + z / 2) (w := 2) (N := 1)
      (by positivity) ?_ ?_ (by omega)
    · rcases abs_cases (1 - 3 / 2 * z) with ⟨h, _⟩ | ⟨h, _⟩ <;> rw [h] <;> linarith
    · intro n hn M hM hj
      obtain ⟨n, rfl⟩ : ∃ m, n = m + 1 := ⟨n - 1, by omega⟩
      have a := hj 0 (by omega)
      have b := hj 1 (by omega)
      rw [Nat.sub_zero] at a
      rw [Nat.add_sub_cancel] at b
      rw [abDecay_two, show abDecay 2 z (n + 1) - z * (3 / 2 * abDecay 2 z (n + 1) - 1 / 2 * abDecay 2 z n) =
        (1 - 3 / 2 * z) * abDecay 2 z (n + 1) + z / 2 * abDecay 2 z n by ring]
      refine (abs_add_le _ _).trans ?_
      rw [abs_mul, abs_mul, abs_of_pos (show (0 : Rat) < z / 2 by linarith), add_mul]
      exact add_le_add (mul_le_mul_of_nonneg_left a (abs_nonneg _)) (mul_le_mul_of_nonneg_left b (by linarith))
  · have hz : z < 6 / 11 := hz
    refine vanishes_of_contraction (c := |1 - 23 / 12 * z| + 16 / 12 * z + 5 / 12 * z) (w := 3) (N := 2)
      (by positivity) ?_ ?_ (by omega)
    · rcases abs_cases (1 - 23 / 12 * z) with ⟨h, _⟩ | ⟨h, _⟩ <;> rw [h] <;> linarith
    · intro n hn M hM hj
      obtain ⟨n, rfl⟩ : ∃ m, n = m + 2 := ⟨n - 2, by omega⟩
      have a := hj 0 (by omega)
      have b := hj 1 (by omega)
      have d := hj 2 (by omega)
      rw [Nat.sub_zero] at a
      rw [show n + 2 - 1 = n + 1 from rfl] at b
      rw [Nat.add_sub_cancel] at d
      rw [abDecay_three, show abDecay 3 z (n + 2) - z * (23 / 12 * abDecay 3 z (n + 2) - 16 / 12 * abDecay 3 z (n + 1) +
        5 / 12 * abDecay 3 z n) = (1 - 23 / 12 * z) * abDecay 3 z (n + 2) + 16 / 12 * z * abDecay 3 z (n + 1) +
          -(5 / 12 * z) * abDecay 3 z n by ring]
      refine (abs_add_le _ _).trans ?_
      rw [add_mul, add_mul]
      refine add_le_add ((abs_add_le _ _).trans ?_) ?_
      · rw [abs_mul, abs_mul, abs_of_pos (show (0 : Rat) < 16 / 12 * z by linarith)]
        exact add_le_add (mul_le_mul_of_nonneg_left a (abs_nonneg _)) (mul_le_mul_of_nonneg_left b (by linarith))
      · rw [abs_mul, abs_neg, abs_of_pos (show (0 : Rat) < 5 / 12 * z by linarith)]
        exact mul_le_mul_of_nonneg_left d (by linarith)
  · have hz : z < 1 / 20 := hz
    refine vanishes_of_contraction (c := 1 - z / 20) (w := 7) (N := 6) (by linarith) (by linarith) ?_ (by omega)
    intro n hn M hM hj
    obtain ⟨n, rfl⟩ : ∃ m, n = m + 6 := ⟨n - 6, by omega⟩
    have key : ∀ m, (∀ j < 4, |abDecay 4 z (m + j)| ≤ M) →
        |abDecay 4 z (m + 4) - abDecay 4 z (m + 3)| ≤ z * (160 / 24 * M) := by
      intro m hm
      rw [abDecay_four]
      have a := abs_le.1 (hm 3 (by omega))
      have b := abs_le.1 (hm 2 (by omega))
      have c := abs_le.1 (hm 1 (by omega))
      have d := abs_le.1 (hm 0 (by omega))
      rw [add_zero] at d
      rw [show abDecay 4 z (m + 3) - z * (55 / 24 * abDecay 4 z (m + 3) - 59 / 24 * abDecay 4 z (m + 2) +
        37 / 24 * abDecay 4 z (m + 1) - 9 / 24 * abDecay 4 z m) - abDecay 4 z (m + 3) = z * -(55 / 24 * abDecay 4 z (m + 3) -
        59 / 24 * abDecay 4 z (m + 2) + 37 / 24 * abDecay 4 z (m + 1) - 9 / 24 * abDecay 4 z m) by ring, abs_mul, abs_of_pos h0]
      refine mul_le_mul_of_nonneg_left ?_ h0.le
      rw [abs_le]
      constructor <;> linarith [a.1, a.2, b.1, b.2, c.1, c.2, d.1, d.2]
    have hval : ∀ j < 7, |abDecay 4 z (n + j)| ≤ M := by
      intro j hj'
      have := hj (6 - j) (by omega)
      rwa [show n + 6 - (6 - j) = n + j by omega] at this
    have d1 := abs_le.1 (key (n + 2) (fun j hj' => by rw [show n + 2 + j = n + (2 + j) by omega]; exact hval _ (by omega)))
    have d2 := abs_le.1 (key (n + 1) (fun j hj' => by rw [show n + 1 + j = n + (1 + j) by omega]; exact hval _ (by omega)))
    have d3 := abs_le.1 (key n (fun j hj' => hval _ (by omega)))
    have v := abs_le.1 (hval 6 (by omega))
    have e : abDecay 4 z (n + 6 + 1) = (1 - z) * abDecay 4 z (n + 6) - z *
        (31 / 24 * (abDecay 4 z (n + 2 + 4) - abDecay 4 z (n + 2 + 3)) -
          28 / 24 * (abDecay 4 z (n + 1 + 4) - abDecay 4 z (n + 1 + 3)) +
          9 / 24 * (abDecay 4 z (n + 4) - abDecay 4 z (n + 3))) := by
      have := abDecay_four z (n + 3)
      rw [show n + 3 + 4 = n + 6 + 1 from rfl] at this
      rw [this]
      rw [show n + 3 + 3 = n + 6 from rfl, show n + 3 + 2 = n + 5 from rfl, show n + 3 + 1 = n + 4 from rfl,
        show n + 2 + 4 = n + 6 from rfl, show n + 2 + 3 = n + 5 from rfl, show n + 1 + 4 = n + 5 from rfl,
        show n + 1 + 3 = n + 4 from rfl]
      ring
    rw [e]
    have hD : |31 / 24 * (abDecay 4 z (n + 2 + 4) - abDecay 4 z (n + 2 + 3)) -
          28 / 24 * (abDecay 4 z (n + 1 + 4) - abDecay 4 z (n + 1 + 3)) +
          9 / 24 * (abDecay 4 z (n + 4) - abDecay 4 z (n + 3))| ≤ 68 / 24 * (z * (160 / 24 * M)) := by
      rw [abs_le]
      constructor <;> linarith [d1.1, d1.2, d2.1, d2.2, d3.1, d3.2]
    refine (abs_sub _ _).trans ?_
    rw [abs_mul, abs_mul, abs_of_pos (show (0 : Rat) < 1 - z by linarith), abs_of_pos h0]
    have t1 := mul_le_mul_of_nonneg_left (hval 6 (by omega)) (show (0 : Rat) ≤ 1 - z by linarith)
    have t2 := mul_le_mul_of_nonneg_left hD h0.le
    have t3 : z * (68 / 24 * (z * (160 / 24 * M))) ≤ z * (19 / 20 * M) := by
      refine mul_le_mul_of_nonneg_left ?_ h0.le
      nlinarith [mul_nonneg h0.le hM, mul_nonneg (show (0 : Rat) ≤ 1 / 20 - z by linarith) hM]
    nlinarith [t1, t2, t3]

/-! ## Leapfrog -/

/-- Trace and determinant of a step. -/
def lfTrace (ν α z : Rat) : Rat := ν - 2 * z + (1 - α) * ν * z
def lfDet (ν α z : Rat) : Rat := -1 + ν - z * α * ν

theorem lfDecay_rec (ν α z : Rat) (n : Nat) :
    lfDecay ν α z (n + 3) = lfTrace ν α z * lfDecay ν α z (n + 2) - lfDet ν α z * lfDecay ν α z (n + 1) := by
  unfold lfDecay lfTrace lfDet
  simp only [lfPair]
  unfold filterDisplacement
  ring

theorem lfDecay_one (ν α z : Rat) : lfDecay ν α z 1 = 1 - z := rfl

theorem lfDecay_two (ν α z : Rat) : lfDecay ν α z 2 = 1 - 2 * z + 2 * z ^ 2 - (1 - α) * ν * z ^ 2 := by
  unfold lfDecay
  simp only [lfPair]
  unfold filterDisplacement
  ring

/-- Leapfrog with a filter of strength `ν` and parameter `α`: the distance vanishes if the
timestep is short enough compared with the strength of the filter. -/
theorem lfDecay_vanishes {ν α z : Rat} (hν : ν ≤ 1) (hν0 : 0 ≤ ν) (hα0 : 0 ≤ α) (h0 : 0 < z)
    (hz : z * (2 - ν + 2 * α * ν) < 2 * ν) : Vanishes (lfDecay ν α z) := by
  have hdet : lfDet ν α z ≤ 0 := by
    unfold lfDet
    have : 0 ≤ z * α * ν := mul_nonneg (mul_nonneg h0.le hα0) hν0
    linarith
  have hc : |lfTrace ν α z| + |lfDet ν α z| < 1 := by
    rw [abs_of_nonpos hdet]
    rcases abs_cases (lfTrace ν α z) with ⟨h, _⟩ | ⟨h, _⟩ <;> rw [h] <;> unfold lfTrace lfDet <;> nlinarith
  refine vanishes_of_contraction (c := |lfTrace ν α z| + |lfDet ν α z|) (w := 2) (N := 2)
    (by positivity) hc ?_ (by omega)
  intro n hn M hM hj
  obtain ⟨n, rfl⟩ : ∃ m, n = m + 2 := ⟨n - 2, by omega⟩
  have a := hj 0 (by omega)
  have b := hj 1 (by omega)
  rw [Nat.sub_zero] at a
  rw [show n + 2 - 1 = n + 1 from rfl] at b
  rw [lfDecay_rec, sub_eq_add_neg]
  refine (abs_add_le _ _).trans ?_
  rw [abs_neg, abs_mul, abs_mul, add_mul]
  exact add_le_add (mul_le_mul_of_nonneg_left a (abs_nonneg _)) (mul_le_mul_of_nonneg_left b (abs_nonneg _))

/-- The computational mode: otherwise a part of the distance is multiplied in every step by a
number of magnitude at least 1. -/
theorem lf_mode {ν α z : Rat} (hν : ν ≤ 1) (hν0 : 0 ≤ ν) (hα0 : 0 ≤ α) (hαν : (1 - α) * ν < 1) (h0 : 0 < z)
    (hz : 2 * ν ≤ z * (2 - ν + 2 * α * ν)) :
    ∃ μ κ : ℝ, 1 ≤ μ ∧ (2 * ν < z * (2 - ν + 2 * α * ν) → 1 < μ) ∧ 0 ≤ κ ∧ ∃ c : ℝ, 0 < c ∧
      ∀ n : Nat, |(lfDecay ν α z (n + 2) : ℝ) - κ * lfDecay ν α z (n + 1)| = μ ^ n * c := by
  -- the characteristic equation
  set s : ℝ := ((-lfTrace ν α z : Rat) : ℝ) with hs
  set p : ℝ := ((-lfDet ν α z : Rat) : ℝ) with hp
  have hs0 : 0 < s := by
    rw [hs]
    have : 0 < -lfTrace ν α z := by unfold lfTrace; nlinarith
    exact_mod_cast this
  have hp0 : 0 ≤ p := by
    rw [hp]
    have : 0 ≤ -lfDet ν α z := by
      unfold lfDet
      have : 0 ≤ z * α * ν := mul_nonneg (mul_nonneg h0.le hα0) hν0
      linarith
    exact_mod_cast this
  have hsp : 1 ≤ s + p := by
    have : 1 ≤ -lfTrace ν α z + -lfDet ν α z := by unfold lfTrace lfDet; nlinarith
    rw [hs, hp]
    exact_mod_cast this
  have hsp' : 2 * ν < z * (2 - ν + 2 * α * ν) → 1 < s + p := by
    intro h
    have : 1 < -lfTrace ν α z + -lfDet ν α z := by unfold lfTrace lfDet; nlinarith
    rw [hs, hp]
    exact_mod_cast this
  have hdisc : 0 ≤ s ^ 2 + 4 * p := by positivity
  set r : ℝ := Real.sqrt (s ^ 2 + 4 * p) with hr
  have hr2 : r ^ 2 = s ^ 2 + 4 * p := Real.sq_sqrt hdisc
  have hr0 : 0 ≤ r := Real.sqrt_nonneg _
  have hrs : s ≤ r := by nlinarith
  refine ⟨(s + r) / 2, (r - s) / 2, ?_, ?_, by linarith, ?_⟩
  · by_contra hlt
    push Not at hlt
    nlinarith
  · intro h
    have := hsp' h
    by_contra hlt
    push Not at hlt
    nlinarith
  · have hmu : 0 < (s + r) / 2 := by linarith
    refine ⟨|(lfDecay ν α z 2 : ℝ) - (r - s) / 2 * lfDecay ν α z 1|, ?_, ?_⟩
    · rw [abs_pos]
      intro hzero
      -- then the quadratic form vanishes
      have hq : (lfDecay ν α z 2 : ℝ) ^ 2 + s * lfDecay ν α z 2 * lfDecay ν α z 1 - p * (lfDecay ν α z 1 : ℝ) ^ 2 = 0 := by
        have e : (lfDecay ν α z 2 : ℝ) = (r - s) / 2 * lfDecay ν α z 1 := by linarith
        rw [e]
        linear_combination (lfDecay ν α z 1 : ℝ) ^ 2 / 4 * hr2
      have hq' : (lfDecay ν α z 2) ^ 2 + -lfTrace ν α z * lfDecay ν α z 2 * lfDecay ν α z 1 -
          -lfDet ν α z * (lfDecay ν α z 1) ^ 2 = 0 := by
        rw [hs, hp] at hq
        exact_mod_cast hq
      have hval : (lfDecay ν α z 2) ^ 2 + -lfTrace ν α z * lfDecay ν α z 2 * lfDecay ν α z 1 -
          -lfDet ν α z * (lfDecay ν α z 1) ^ 2 = z ^ 2 * (1 - (1 - α) * ν) * (1 - ν + α * ν * z) := by
        rw [lfDecay_one, lfDecay_two]
        unfold lfTrace lfDet
        ring
      rw [hval] at hq'
      have h1 : 0 < z ^ 2 := by positivity
      have h2 : 0 < 1 - (1 - α) * ν := by linarith
      have h3 : 0 < 1 - ν + α * ν * z := by
        have hnn : 0 ≤ α * ν * z := mul_nonneg (mul_nonneg hα0 hν0) h0.le
        rcases lt_or_eq_of_le hν with h | h
        · linarith
        · subst h
          have : 0 < α := by nlinarith
          have : 0 < α * 1 * z := by positivity
          linarith
      have := mul_pos (mul_pos h1 h2) h3
      linarith
    · intro n
      induction n with
      | zero => simp
      | succ n ih =>
        have hrec := lfDecay_rec ν α z n
        have hrec' : (lfDecay ν α z (n + 3) : ℝ) = -s * lfDecay ν α z (n + 2) + p * lfDecay ν α z (n + 1) := by
          rw [hrec, hs, hp]
          push_cast
          ring
        rw [show n + 1 + 2 = n + 3 from rfl, show n + 1 + 1 = n + 2 from rfl, hrec', pow_succ, mul_right_comm, ← ih,
          ← abs_of_pos hmu, ← abs_mul, ← abs_neg]
        congr 1
        linear_combination (lfDecay ν α z (n + 1) : ℝ) / 4 * hr2

/-- Leapfrog: the distance is not bounded if the timestep is too long compared with the
strength of the filter, and does not vanish in the limiting case. -/
theorem lfDecay_not_vanishing {ν α z : Rat} (hν : ν ≤ 1) (hν0 : 0 ≤ ν) (hα0 : 0 ≤ α)
    (hαν : (1 - α) * ν < 1) (h0 : 0 < z) (hz : 2 * ν ≤ z * (2 - ν + 2 * α * ν)) :
    ¬ Vanishes (lfDecay ν α z) ∧ (2 * ν < z * (2 - ν + 2 * α * ν) → Unbounded (lfDecay ν α z)) := by
  obtain ⟨μ, κ, h1, h1', hκ, c, hc, hn⟩ := lf_mode hν hν0 hα0 hαν h0 hz
  have hle : ∀ (B : ℝ) n, |(lfDecay ν α z (n + 1) : ℝ)| ≤ B → |(lfDecay ν α z (n + 2) : ℝ)| ≤ B → μ ^ n * c ≤ (1 + κ) * B := by
    intro B n ha hb
    rw [← hn n, sub_eq_add_neg]
    refine (abs_add_le _ _).trans ?_
    rw [abs_neg, abs_mul, abs_of_nonneg hκ, add_mul, one_mul]
    exact add_le_add hb (mul_le_mul_of_nonneg_left ha hκ)
  constructor
  · intro hv
    obtain ⟨ε, hε, hεc⟩ : ∃ ε : Rat, 0 < ε ∧ (1 + κ) * ε < c := by
      obtain ⟨ε, h1, h2⟩ := exists_rat_btwn (show (0 : ℝ) < c / (1 + κ) by positivity)
      refine ⟨ε, by exact_mod_cast h1, ?_⟩
      rw [lt_div_iff₀ (by positivity)] at h2
      linarith
    obtain ⟨N, hN⟩ := hv ε hε
    have := hle ε N (by exact_mod_cast (hN (N + 1) (by omega)).le) (by exact_mod_cast (hN (N + 2) (by omega)).le)
    have hpow : 1 ≤ μ ^ N := one_le_pow₀ h1
    nlinarith
  · intro h B
    by_contra hcon
    push Not at hcon
    obtain ⟨n, hn'⟩ := pow_unbounded_of_one_lt ((1 + κ) * B / c) (h1' h)
    have := hle B n (by exact_mod_cast hcon (n + 1)) (by exact_mod_cast hcon (n + 2))
    rw [div_lt_iff₀ hc] at hn'
    linarith

end Verif

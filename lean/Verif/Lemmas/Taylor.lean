import Verif.Spec.Convergence
import Mathlib.Analysis.Calculus.MeanValue
import Mathlib.Analysis.Calculus.Deriv.Pow
import Mathlib.Analysis.Calculus.Deriv.Comp
import Mathlib.Analysis.Calculus.Deriv.Add
import Mathlib.Analysis.Calculus.Deriv.Mul
import Mathlib.Algebra.BigOperators.Fin
import Mathlib.Tactic.Linarith
import Mathlib.Tactic.FieldSimp
import Mathlib.Tactic.Positivity
/-! # Taylor polynomials with a bound for the remainder -/

namespace Verif

open Finset

/-- The Taylor polynomial with `n` terms. -/
noncomputable def taylorSum (d : Nat → ℝ) (n : Nat) (s : ℝ) : ℝ := ∑ k ∈ range n, d k * (s ^ k / k.factorial)

theorem taylorSum_deriv (d : Nat → ℝ) (n : Nat) (s : ℝ) :
    HasDerivAt (taylorSum d (n + 1)) (taylorSum (fun k => d (k + 1)) n s) s := by
  induction n with
  | zero =>
    have : taylorSum d 1 = fun _ => d 0 := by
      funext s
      simp [taylorSum]
    rw [this]
    simpa [taylorSum] using hasDerivAt_const s (d 0)
  | succ n ih =>
    have h1 : taylorSum d (n + 1 + 1) = fun s => taylorSum d (n + 1) s + d (n + 1) * (s ^ (n + 1) / (n + 1).factorial) := by
      funext s
      unfold taylorSum
      rw [sum_range_succ]
    have h2 : taylorSum (fun k => d (k + 1)) (n + 1) s =
        taylorSum (fun k => d (k + 1)) n s + d (n + 1) * (s ^ n / n.factorial) := by
      unfold taylorSum
      rw [sum_range_succ]
    rw [h1, h2]
    refine ih.add (HasDerivAt.const_mul _ ?_)
    have h3 := (hasDerivAt_pow (n + 1) s).div_const ((n + 1).factorial : ℝ)
    have h4 : ((n + 1 : ℕ) : ℝ) * s ^ (n + 1 - 1) / (n + 1).factorial = s ^ n / n.factorial := by
      rw [Nat.factorial_succ, Nat.add_sub_cancel]
      push_cast
      have : (n.factorial : ℝ) ≠ 0 := by exact_mod_cast n.factorial_ne_zero
      have : (n : ℝ) + 1 ≠ 0 := by positivity
      field_simp
    rw [h4] at h3
    exact h3

theorem taylor_right {B : ℝ} : ∀ (n : Nat) (d : Nat → ℝ → ℝ) (s : ℝ), 0 ≤ s →
    (∀ j < n, ∀ x ∈ Set.Icc 0 s, HasDerivAt (d j) (d (j + 1) x) x) → (∀ x ∈ Set.Icc 0 s, |d n x| ≤ B) →
    |d 0 s - taylorSum (fun k => d k 0) n s| ≤ B * (s ^ n / n.factorial) := by
  intro n
  induction n with
  | zero =>
    intro d s hs _ hb
    have := hb s ⟨hs, le_refl _⟩
    simpa [taylorSum] using this
  | succ n ih =>
    intro d s hs hd hb
    have h0 : ∀ x ∈ Set.Icc 0 s, |d 1 x - taylorSum (fun k => d (k + 1) 0) n x| ≤ B * (x ^ n / n.factorial) := by
      intro x hx
      exact ih (fun j => d (j + 1)) x hx.1
        (fun j hj z hz => hd (j + 1) (by omega) z ⟨hz.1, le_trans hz.2 hx.2⟩)
        (fun z hz => hb z ⟨hz.1, le_trans hz.2 hx.2⟩)
    have hder : ∀ x ∈ Set.Icc 0 s, HasDerivAt (fun z => d 0 z - taylorSum (fun k => d k 0) (n + 1) z)
        (d 1 x - taylorSum (fun k => d (k + 1) 0) n x) x := fun x hx =>
      (hd 0 (by omega) x hx).sub (taylorSum_deriv (fun k => d k 0) n x)
    have hB : ∀ x, HasDerivAt (fun z => B * (z ^ (n + 1) / (n + 1).factorial)) (B * (x ^ n / n.factorial)) x := by
      intro x
      have h := taylorSum_deriv (fun k => if k = n + 1 then 1 else 0) (n + 1) x
      have e1 : taylorSum (fun k => if k = n + 1 then (1 : ℝ) else 0) (n + 1 + 1) =
          fun z : ℝ => z ^ (n + 1) / ((n + 1).factorial : ℝ) := by
        funext z
        simp [taylorSum]
      have e2 : taylorSum (fun k => if k + 1 = n + 1 then (1 : ℝ) else 0) (n + 1) x = x ^ n / n.factorial := by
        simp [taylorSum]
      rw [e1, e2] at h
      exact h.const_mul B
    have := image_norm_le_of_norm_deriv_right_le_deriv_boundary (a := 0) (b := s)
      (f := fun z => d 0 z - taylorSum (fun k => d k 0) (n + 1) z)
      (f' := fun x => d 1 x - taylorSum (fun k => d (k + 1) 0) n x)
      (fun x hx => (hder x hx).continuousAt.continuousWithinAt)
      (fun x hx => (hder x ⟨hx.1, hx.2.le⟩).hasDerivWithinAt)
      (by
        have : taylorSum (fun k => d k 0) (n + 1) 0 = d 0 0 := by
          unfold taylorSum
          rw [sum_range_succ']
          simp
        simp [this])
      hB (fun x hx => h0 x ⟨hx.1, hx.2.le⟩) ⟨hs, le_refl s⟩
    exact this

/-- The remainder at `t + h`, forward or backward. -/
theorem taylor_within {J : Set ℝ} (hJ : Convex ℝ J) {n : Nat} {d : Nat → ℝ → ℝ} {B t h : ℝ} (ht : t ∈ J) (hth : t + h ∈ J)
    (hd : ∀ j < n, ∀ x ∈ J, HasDerivAt (d j) (d (j + 1) x) x) (hb : ∀ x ∈ J, |d n x| ≤ B) :
    |d 0 (t + h) - taylorSum (fun k => d k t) n h| ≤ B * (|h| ^ n / n.factorial) := by
  have hin : ∀ x ∈ Set.Icc (0 : ℝ) 1, t + x * h ∈ J := fun x hx => hJ.add_smul_mem ht hth hx
  have := taylor_right (B := B * |h| ^ n) n (fun j x => d j (t + x * h) * h ^ j) 1 zero_le_one
    (by
      intro j hj x hx
      have h1 : HasDerivAt (fun x : ℝ => t + x * h) h x := by
        simpa using ((hasDerivAt_id x).mul_const h).const_add t
      have h2 := ((hd j hj _ (hin x hx)).comp x h1).mul_const (h ^ j)
      rw [show d (j + 1) (t + x * h) * h ^ (j + 1) = d (j + 1) (t + x * h) * h * h ^ j by rw [pow_succ]; ring]
      exact h2)
    (by
      intro x hx
      rw [abs_mul, abs_pow]
      exact mul_le_mul_of_nonneg_right (hb _ (hin x hx)) (by positivity))
  have e1 : taylorSum (fun k => d k (t + 0 * h) * h ^ k) n 1 = taylorSum (fun k => d k t) n h := by
    unfold taylorSum
    refine sum_congr rfl fun k _ => ?_
    rw [zero_mul, add_zero, one_pow]
    ring
  rw [e1, one_mul, pow_zero, mul_one, one_pow] at this
  calc _ ≤ _ := this
    _ = _ := by ring

/-- How well the Adams-Bashforth scheme of order `m` is satisfied by a solution. -/
theorem ab_truncation {J : Set ℝ} (hJ : Convex ℝ J) {m : Nat} (h1 : 1 ≤ m) (h4 : m ≤ 4) {d : Nat → ℝ → ℝ} {B t h : ℝ}
    (hth : t + h ∈ J) (hp : ∀ j < m, t + -(j * h) ∈ J)
    (hd : ∀ j ≤ m, ∀ x ∈ J, HasDerivAt (d j) (d (j + 1) x) x) (hb : ∀ x ∈ J, |d (m + 1) x| ≤ B) :
    |d 0 t + h * ∑ j ∈ range m, (abCoef m j : ℝ) * d 1 (t + -(j * h)) - d 0 (t + h)| ≤
      (abTruncation m : ℝ) * B * |h| ^ (m + 1) := by
  have ht : t ∈ J := by simpa using hp 0 (by omega)
  have f0 := taylor_within hJ (n := m + 1) ht hth (fun j hj => hd j (by omega)) hb
  have fp : ∀ j < m, |d 1 (t + -(j * h)) - taylorSum (fun k => d (k + 1) t) m (-(j * h))| ≤
      B * (((j : ℝ) * |h|) ^ m / m.factorial) := by
    intro j hj
    have := taylor_within hJ (n := m) (d := fun k => d (k + 1)) ht (hp j hj) (fun j hj => hd (j + 1) (by omega)) hb
    rwa [abs_neg, abs_mul, Nat.abs_cast] at this
  have hexact : d 0 t + h * ∑ j ∈ range m, (abCoef m j : ℝ) * taylorSum (fun k => d (k + 1) t) m (-(j * h)) =
      taylorSum (fun k => d k t) (m + 1) h := by
    rcases (by omega : m = 1 ∨ m = 2 ∨ m = 3 ∨ m = 4) with rfl | rfl | rfl | rfl <;>
    · simp only [taylorSum, sum_range_succ, sum_range_zero, abCoef, Nat.factorial]
      push_cast
      ring
  have hsum : |∑ j ∈ range m, (abCoef m j : ℝ) * (d 1 (t + -(j * h)) - taylorSum (fun k => d (k + 1) t) m (-(j * h)))| ≤
      ∑ j ∈ range m, |(abCoef m j : ℝ)| * (B * (((j : ℝ) * |h|) ^ m / m.factorial)) := by
    refine le_trans (abs_sum_le_sum_abs _ _) (sum_le_sum fun j hj => ?_)
    rw [abs_mul]
    exact mul_le_mul_of_nonneg_left (fp j (mem_range.1 hj)) (abs_nonneg _)
  have e : d 0 t + h * ∑ j ∈ range m, (abCoef m j : ℝ) * d 1 (t + -(j * h)) - d 0 (t + h) =
      h * ∑ j ∈ range m, (abCoef m j : ℝ) * (d 1 (t + -(j * h)) - taylorSum (fun k => d (k + 1) t) m (-(j * h))) -
        (d 0 (t + h) - taylorSum (fun k => d k t) (m + 1) h) := by
    rw [← hexact]
    simp only [mul_sub, sum_sub_distrib]
    ring
  rw [e]
  have htri := abs_sub (h * ∑ j ∈ range m, (abCoef m j : ℝ) *
    (d 1 (t + -(j * h)) - taylorSum (fun k => d (k + 1) t) m (-(j * h)))) (d 0 (t + h) - taylorSum (fun k => d k t) (m + 1) h)
  rw [abs_mul] at htri
  have hc : (abTruncation m : ℝ) * B * |h| ^ (m + 1) =
      |h| * (∑ j ∈ range m, |(abCoef m j : ℝ)| * (B * (((j : ℝ) * |h|) ^ m / m.factorial))) +
        B * (|h| ^ (m + 1) / (m + 1).factorial) := by
    rcases (by omega : m = 1 ∨ m = 2 ∨ m = 3 ∨ m = 4) with rfl | rfl | rfl | rfl <;>
    · simp only [abTruncation, sum_range_succ, sum_range_zero, abCoef, Nat.factorial, List.range_succ, List.range_zero,
        List.nil_append, List.cons_append, List.map_cons, List.map_nil, List.sum_cons, List.sum_nil]
      push_cast
      ring
  rw [hc]
  exact le_trans htri (add_le_add (mul_le_mul_of_nonneg_left hsum (abs_nonneg _)) f0)

end Verif

import Verif.Spec.Rounding
import Verif.Lemmas.TimeSteppers
import Mathlib.Tactic.Linarith
import Mathlib.Tactic.Positivity
import Mathlib.Tactic.FieldSimp
/-! # Lemmas about rounding -/

namespace Verif

theorem roundEven_near (y : Rat) : |(roundEven y : Rat) - y| ≤ 1 / 2 := by
  have h0 : (⌊y⌋ : Rat) ≤ y := Int.floor_le y
  have h1 : y < ⌊y⌋ + 1 := Int.lt_floor_add_one y
  rw [abs_le]
  unfold roundEven
  split
  · constructor <;> linarith
  · split
    · push_cast; constructor <;> linarith
    · split
      · constructor <;> linarith
      · push_cast; constructor <;> linarith

theorem binary64_rounds : Rounds (2 ^ (-53 : Int)) binary64 := by
  intro x
  unfold binary64
  by_cases hx : x = 0
  · rw [if_pos hx, hx]; simp
  · rw [if_neg hx]
    have hpos : 0 < |x| := abs_pos.2 hx
    have hlog : (2 : Rat) ^ Int.log 2 |x| ≤ |x| := by
      have := Int.zpow_log_le_self (b := 2) (by norm_num) hpos
      exact_mod_cast this
    generalize Int.log 2 |x| = l at *
    have hk : (2 : Rat) ^ (52 - l) * 2 ^ (l - 52) = 1 := by
      rw [← zpow_add₀ (by norm_num)]
      rw [show 52 - l + (l - 52) = 0 by ring, zpow_zero]
    have hp : (0 : Rat) < 2 ^ (l - 52) := zpow_pos (by norm_num) _
    have e : (roundEven (x * 2 ^ (52 - l)) : Rat) * 2 ^ (l - 52) - x
        = ((roundEven (x * 2 ^ (52 - l)) : Rat) - x * 2 ^ (52 - l)) * 2 ^ (l - 52) := by
      rw [sub_mul, mul_assoc x, hk, mul_one]
    rw [e, abs_mul, abs_of_pos hp]
    calc |(roundEven (x * 2 ^ (52 - l)) : Rat) - x * 2 ^ (52 - l)| * 2 ^ (l - 52)
        ≤ 1 / 2 * 2 ^ (l - 52) := mul_le_mul_of_nonneg_right (roundEven_near _) hp.le
      _ = 2 ^ (-53 : Int) * 2 ^ l := by
          rw [← zpow_add₀ (by norm_num), show (-53 : Int) + l = (l - 52) - 1 by ring,
            zpow_sub_one₀ (by norm_num)]
          ring
      _ ≤ _ := mul_le_mul_of_nonneg_left hlog (by positivity)

theorem log_double {r : Rat} (h : 0 < r) : Int.log 2 (2 * r) = Int.log 2 r + 1 := by
  have h2 : (0 : Rat) < 2 * r := by linarith
  apply le_antisymm
  · have : Int.log 2 (2 * r) - 1 ≤ Int.log 2 r := by
      rw [← Int.zpow_le_iff_le_log (by norm_num) h]
      have := Int.zpow_log_le_self (b := 2) (by norm_num) h2
      push_cast at *
      rw [zpow_sub_one₀ (by norm_num)]
      linarith
    omega
  · rw [← Int.zpow_le_iff_le_log (by norm_num) h2]
    have := Int.zpow_log_le_self (b := 2) (by norm_num) h
    push_cast at *
    rw [zpow_add_one₀ (by norm_num)]
    linarith

theorem binary64_digits : BinaryDigits binary64 where
  double x := by
    unfold binary64
    by_cases hx : x = 0
    · simp [hx]
    · rw [if_neg (mul_ne_zero (by norm_num) hx), if_neg hx]
      rw [abs_mul, abs_of_pos (by norm_num : (0 : Rat) < 2), log_double (abs_pos.2 hx)]
      generalize Int.log 2 |x| = l
      have e1 : 2 * x * (2 : Rat) ^ (52 - (l + 1)) = x * 2 ^ (52 - l) := by
        rw [show 52 - (l + 1) = (52 - l) - 1 by ring, zpow_sub_one₀ (by norm_num)]
        ring
      have e2 : (2 : Rat) ^ (l + 1 - 52) = 2 * 2 ^ (l - 52) := by
        rw [show l + 1 - 52 = (l - 52) + 1 by ring, zpow_add_one₀ (by norm_num)]
        ring
      rw [e1, e2]
      ring
  one := by decide +kernel

theorem Rounds.zero {u : Rat} {fl : Rat → Rat} (h : Rounds u fl) : fl 0 = 0 := by
  have := h 0
  rw [abs_zero, mul_zero, sub_zero] at this
  exact abs_eq_zero.1 (le_antisymm this (abs_nonneg _))

theorem BinaryDigits.half {fl : Rat → Rat} (h : BinaryDigits fl) : fl (1 / 2) = 1 / 2 := by
  have := h.double (1 / 2)
  rw [show (2 : Rat) * (1 / 2) = 1 by norm_num, h.one] at this
  linarith

/-! ## Sums and multiples of numbers that were rounded -/

variable {u : Rat} {fl : Rat → Rat}

theorem pow_mono (hu : 0 ≤ u) {m n : Nat} (h : m ≤ n) : (1 + u) ^ m ≤ (1 + u) ^ n :=
  pow_le_pow_right₀ (by linarith) h

theorem one_le_pow (hu : 0 ≤ u) (m : Nat) : 1 ≤ (1 + u) ^ m := one_le_pow₀ (by linarith)

theorem Near.exact (x : Rat) : Near u 0 x x |x| := ⟨by simp, le_refl _⟩

theorem Near.mono (hu : 0 ≤ u) {m n : Nat} {y x a b : Rat} (h : Near u m y x a) (hm : m ≤ n) (hab : a ≤ b) :
    Near u n y x b := by
  have ha : 0 ≤ a := le_trans (abs_nonneg _) h.size
  refine ⟨le_trans h.err ?_, le_trans h.size hab⟩
  have h1 := pow_mono hu hm
  have h2 := one_le_pow hu n
  nlinarith

theorem Near.grown {m : Nat} {y x a : Rat} (h : Near u m y x a) : |y| ≤ (1 + u) ^ m * a := by
  have h1 := h.err
  have h2 := h.size
  have h3 : |y| ≤ |y - x| + |x| := by
    have := abs_add_le (y - x) x
    rwa [sub_add_cancel] at this
  linarith

theorem Near.round (hu : 0 ≤ u) (hfl : Rounds u fl) {m : Nat} {y x a : Rat} (h : Near u m y x a) :
    Near u (m + 1) (fl y) x a := by
  refine ⟨?_, h.size⟩
  have h1 := hfl y
  have h2 := h.grown
  have h3 := h.err
  have h4 : |fl y - x| ≤ |fl y - y| + |y - x| := by
    have := abs_add_le (fl y - y) (y - x)
    rwa [sub_add_sub_cancel] at this
  rw [pow_succ]
  nlinarith

theorem Near.add {m : Nat} {y x a z w b : Rat} (h : Near u m y x a) (h' : Near u m z w b) :
    Near u m (y + z) (x + w) (a + b) := by
  refine ⟨?_, le_trans (abs_add_le _ _) (add_le_add h.size h'.size)⟩
  have h1 := h.err
  have h2 := h'.err
  have h3 := abs_add_le (y - x) (z - w)
  rw [show y - x + (z - w) = y + z - (x + w) by ring] at h3
  linarith

theorem Near.neg {m : Nat} {y x a : Rat} (h : Near u m y x a) : Near u m (-y) (-x) a := by
  refine ⟨?_, by rw [abs_neg]; exact h.size⟩
  rw [show -y - -x = -(y - x) by ring, abs_neg]
  exact h.err

theorem Near.sub {m : Nat} {y x a z w b : Rat} (h : Near u m y x a) (h' : Near u m z w b) :
    Near u m (y - z) (x - w) (a + b) := by
  rw [sub_eq_add_neg, sub_eq_add_neg]
  exact h.add h'.neg

theorem Near.mul {m n : Nat} {y x a z w b : Rat} (h : Near u m y x a) (h' : Near u n z w b) :
    Near u (m + n) (y * z) (x * w) (a * b) := by
  have ha : 0 ≤ a := le_trans (abs_nonneg _) h.size
  have hb : 0 ≤ b := le_trans (abs_nonneg _) h'.size
  refine ⟨?_, by rw [abs_mul]; exact mul_le_mul h.size h'.size (abs_nonneg _) ha⟩
  have e : y * z - x * w = (y - x) * z + x * (z - w) := by ring
  have h1 : |(y - x) * z| ≤ ((1 + u) ^ m - 1) * a * ((1 + u) ^ n * b) := by
    rw [abs_mul]
    exact mul_le_mul h.err h'.grown (abs_nonneg _) (le_trans (abs_nonneg _) h.err)
  have h2 : |x * (z - w)| ≤ a * (((1 + u) ^ n - 1) * b) := by
    rw [abs_mul]
    exact mul_le_mul h.size h'.err (abs_nonneg _) ha
  rw [e]
  have h3 := abs_add_le ((y - x) * z) (x * (z - w))
  calc _ ≤ _ := h3
    _ ≤ ((1 + u) ^ m - 1) * a * ((1 + u) ^ n * b) + a * (((1 + u) ^ n - 1) * b) := add_le_add h1 h2
    _ = _ := by rw [pow_add]; ring

/-- a multiple by a constant: the constant and the product are rounded -/
theorem Near.smul (hu : 0 ≤ u) (hfl : Rounds u fl) (c : Rat) {m : Nat} {y x a : Rat} (h : Near u m y x a) :
    Near u (m + 2) (fl (fl c * y)) (c * x) (|c| * a) := by
  have := (((Near.exact c).round hu hfl).mul h).round hu hfl
  rwa [show 0 + 1 + m + 1 = m + 2 by ring] at this

end Verif

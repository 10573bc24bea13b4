import Verif.Lemmas.Taylor
import Verif.Props.RoundingErrors
import Mathlib.Analysis.SpecialFunctions.ExpDeriv
import Mathlib.Analysis.SpecialFunctions.Exp
/-! # Adams-Bashforth runs follow the differential equation of the components: property C115 -/

namespace Verif

variable {fl : Rat → Rat} {conv : DataArray → String → Except Err DataArray} {u : Rat}
  {I : (String → Nat) → Prop} {w : String → Rat} {Q : String → Prop} {y : Trajectory} {J : Set ℝ} {k : Nat} {D : Nat → Rat}

/-! ## One step -/

theorem NearSolution.mono (hw : ∀ q, 0 ≤ w q) {E E' : Rat} (hE : E ≤ E') {t : ℝ} {x : EState DataArray}
    (h : NearSolution I w Q y E t x) : NearSolution I w Q y E' t x := by
  intro q hq
  obtain ⟨a, ha, h⟩ := h q hq
  refine ⟨a, ha, fun ix hix => le_trans (h ix hix) (mul_le_mul_of_nonneg_right ?_ ?_)⟩
  · exact_mod_cast hE
  · exact_mod_cast hw q

theorem NearDerivative.mono (hw : ∀ q, 0 ≤ w q) {E E' : Rat} (hE : E ≤ E') {t : ℝ} {v : Dict DataArray}
    (h : NearDerivative I w Q y E t v) : NearDerivative I w Q y E' t v := by
  intro q hq
  obtain ⟨a, h⟩ := h q hq
  refine ⟨a, fun ix hix => le_trans (h ix hix) (mul_le_mul_of_nonneg_right ?_ ?_)⟩
  · exact_mod_cast hE
  · exact_mod_cast hw q

/-- The scheme applied to values and tendencies that are near those of the solution. -/
theorem abFormula_near {m : Nat} (h1 : 1 ≤ m) (h4 : m ≤ 4) {x h : Rat} {p : Nat → Rat} {y0 : ℝ} {y1 : Nat → ℝ} {A B : ℝ}
    (hx : |(x : ℝ) - y0| ≤ A) (hp : ∀ j < m, |(p j : ℝ) - y1 j| ≤ B) :
    |(abFormula m x h p : ℝ) - (y0 + h * ∑ j ∈ Finset.range m, (abCoef m j : ℝ) * y1 j)| ≤ A + |(h : ℝ)| * (20 / 3 * B) := by
  have hB : 0 ≤ B := le_trans (abs_nonneg _) (hp 0 (by omega))
  have e : (abFormula m x h p : ℝ) - (y0 + h * ∑ j ∈ Finset.range m, (abCoef m j : ℝ) * y1 j) =
      (x - y0) + h * ∑ j ∈ Finset.range m, (abCoef m j : ℝ) * (p j - y1 j) := by
    rcases (by omega : m = 1 ∨ m = 2 ∨ m = 3 ∨ m = 4) with rfl | rfl | rfl | rfl <;>
    · simp only [abFormula, abCoef, Finset.sum_range_succ, Finset.sum_range_zero, List.range_succ, List.range_zero,
        List.nil_append, List.cons_append, List.map_cons, List.map_nil, List.sum_cons, List.sum_nil]
      push_cast
      ring
  have hs : |∑ j ∈ Finset.range m, (abCoef m j : ℝ) * (p j - y1 j)| ≤ 20 / 3 * B := by
    have h2 : ∑ j ∈ Finset.range m, |(abCoef m j : ℝ)| * B ≤ 20 / 3 * B := by
      rw [← Finset.sum_mul]
      refine mul_le_mul_of_nonneg_right ?_ hB
      rcases (by omega : m = 1 ∨ m = 2 ∨ m = 3 ∨ m = 4) with rfl | rfl | rfl | rfl <;>
      · simp only [abCoef, Finset.sum_range_succ, Finset.sum_range_zero]
        push_cast
        norm_num [abs_div, abs_neg]
    refine le_trans (le_trans (Finset.abs_sum_le_sum_abs _ _) (Finset.sum_le_sum fun j hj => ?_)) h2
    rw [abs_mul]
    exact mul_le_mul_of_nonneg_left (hp j (Finset.mem_range.1 hj)) (abs_nonneg _)
  rw [e]
  refine le_trans (abs_add_le _ _) (add_le_add hx ?_)
  rw [abs_mul]
  exact mul_le_mul_of_nonneg_left hs (abs_nonneg _)

/-- One step of an AdamsBashforth, from near the solution to near the solution. -/
theorem ab_step_near (hu : 0 ≤ u) (hfl : Rounds u fl) (hw : ∀ q, 0 ≤ w q) (hJ : Convex ℝ J)
    (hy : SmoothDuring I w Q y J k D) {E B X T : Rat} (hT0 : 0 ≤ T) {order : Nat} (hok : order ≤ k)
    {hist : List (Dict DataArray)} {x n : EState DataArray} {dt : Int} {τ : ℝ}
    (hτ : τ + (seconds dt : ℝ) ∈ J) (hpast : ∀ j < hist.length, τ + -(j * (seconds dt : ℝ)) ∈ J)
    (hh : ∀ j < hist.length, NearDerivative I w Q y B (τ + -(j * (seconds dt : ℝ))) (hist.reverse.getD j []))
    (hT : u ≠ 0 → ∀ t ∈ hist, TendSized I w T t) (hx : NearSolution I w Q y E τ x) (hX : u ≠ 0 → StateSized I w X x)
    (h : performStepO (roundedArith fl conv) order hist x dt = .ok n) :
    NearSolution I w Q y (E + |seconds dt| * (20 / 3 * B) + ((1 + u) ^ 8 - 1) * (X + |seconds dt| * (20 / 3 * T)) +
      abTruncation (min order hist.length) * D (min order hist.length + 1) * |seconds dt| ^ (min order hist.length + 1))
      (τ + (seconds dt : ℝ)) n ∧ ∀ q, Q q → q ∈ Dict.keys n := by
  obtain ⟨m, hm, h1, h4, hk, hs⟩ := performStepO_spec h
  rw [← hm]
  have hlen : m ≤ hist.length := by omega
  have hkeys : ∀ q, Q q → q ∈ Dict.keys n := by
    intro q hq
    rw [hk]
    split
    · have := (hh 0 (by omega) q hq).1
      rw [List.getD_eq_getElem?_getD] at this
      rwa [← List.head?_reverse, List.head?_eq_getElem?]
    · have := (hh (hist.length - 1) (by omega) q hq).1
      rw [List.getD_eq_getElem?_getD, List.getElem?_reverse (by omega)] at this
      rwa [List.head?_eq_getElem?, show 0 = hist.length - 1 - (hist.length - 1) by omega]
  refine ⟨fun q hq => ?_, hkeys⟩
  obtain ⟨xa, ra, hxa, hra, _, _, hva⟩ := hs q (hkeys q hq)
  refine ⟨ra, hra, fun ix hix => ?_⟩
  rw [hva ix]
  generalize hpa : (fun j => tval (hist.reverse.getD j []) q ix) = pa
  have hwq : (0 : ℝ) ≤ w q := by exact_mod_cast hw q
  have sp : u ≠ 0 → ∀ j, |pa j| ≤ T * w q := by
    intro hu0 j
    rw [← hpa]
    dsimp only
    rw [List.getD_eq_getElem?_getD]
    cases hj : hist.reverse[j]? with
    | none =>
      show |(0 : Rat)| ≤ _
      rw [abs_zero]
      exact mul_nonneg hT0 (hw q)
    | some t => exact hT hu0 t (List.mem_reverse.1 (List.mem_of_getElem? hj)) q ix hix
  have near : |roundedAB fl m (xa.at' ix) (seconds dt) pa - abFormula m (xa.at' ix) (seconds dt) pa| ≤
      ((1 + u) ^ 8 - 1) * (X * w q + |seconds dt| * (20 / 3 * (T * w q))) := by
    by_cases hu0 : u = 0
    · have := ((roundedAB_near hu hfl h1 h4 (xa.at' ix) (seconds dt) pa).mono hu (show m + 4 ≤ 8 by omega) (le_refl _)).err
      rw [hu0] at this ⊢
      simpa using this
    · exact ((roundedAB_near hu hfl h1 h4 (xa.at' ix) (seconds dt) pa).mono hu (show m + 4 ≤ 8 by omega)
        (abSize_le h1 h4 (hX hu0 q xa hxa ix hix) (sp hu0))).err
  obtain ⟨xb, hxb, dx⟩ := hx q hq
  rw [hxa] at hxb
  cases hxb
  have mid := abFormula_near h1 h4 (h := seconds dt) (y1 := fun j => y 1 q ix (τ + -(j * (seconds dt : ℝ))))
    (dx ix hix) (p := pa) (B := B * w q) (fun j hj => by
      have := (hh j (by omega) q hq).2 ix hix
      rw [← hpa]
      exact this)
  have tr := ab_truncation hJ h1 h4 (d := fun j => y j q ix) (B := D (m + 1) * w q) (t := τ) (h := (seconds dt : ℝ)) hτ
    (fun j hj => hpast j (by omega)) (fun j hj x hx => hy.deriv j (by omega) q hq ix hix x hx)
    (fun x hx => hy.bound (m + 1) (by omega) q hq ix hix x hx)
  have near' : |((roundedAB fl m (xa.at' ix) (seconds dt) pa : Rat) : ℝ) - (abFormula m (xa.at' ix) (seconds dt) pa : Rat)| ≤
      (((1 + u) ^ 8 - 1) * (X * w q + |seconds dt| * (20 / 3 * (T * w q))) : Rat) := by
    rw [← Rat.cast_sub, ← Rat.cast_abs]
    exact_mod_cast near
  have t1 := abs_sub_le ((roundedAB fl m (xa.at' ix) (seconds dt) pa : Rat) : ℝ)
    (abFormula m (xa.at' ix) (seconds dt) pa : Rat) (y 0 q ix (τ + (seconds dt : ℝ)))
  have t2 := abs_sub_le ((abFormula m (xa.at' ix) (seconds dt) pa : Rat) : ℝ)
    (y 0 q ix τ + (seconds dt : ℝ) * ∑ j ∈ Finset.range m, (abCoef m j : ℝ) * y 1 q ix (τ + -(j * (seconds dt : ℝ))))
    (y 0 q ix (τ + (seconds dt : ℝ)))
  have t3 := le_trans t1 (add_le_add near' (le_trans t2 (add_le_add mid tr)))
  refine le_trans t3 (le_of_eq ?_)
  push_cast
  ring

/-! ## Runs -/

/-- The factor by which earlier errors can grow in a step. -/
theorem growth_sum {K g E : Rat} (hK : 1 ≤ K) (hg : 0 ≤ g) {f : Nat → Rat} (hf : ∀ i, 0 ≤ f i) (n : Nat) :
    K ^ n * ((K * E + g + f 0) + ((List.range n).map fun i => g + f (i + 1)).sum) ≤
      K ^ (n + 1) * (E + ((List.range (n + 1)).map fun i => g + f i).sum) := by
  have hS : 0 ≤ ((List.range n).map fun i => g + f (i + 1)).sum := by
    refine List.sum_nonneg fun z hz => ?_
    obtain ⟨i, _, rfl⟩ := List.mem_map.1 hz
    exact add_nonneg hg (hf _)
  have h1 : ((List.range (n + 1)).map fun i => g + f i).sum =
      (g + f 0) + ((List.range n).map fun i => g + f (i + 1)).sum := by
    rw [List.range_succ_eq_map, List.map_cons, List.sum_cons, List.map_map]
    rfl
  rw [h1, pow_succ, mul_assoc]
  refine mul_le_mul_of_nonneg_left ?_ (pow_nonneg (by linarith) n)
  have := hf 0
  nlinarith

theorem abTruncation_nonneg (m : Nat) : 0 ≤ abTruncation m := by
  unfold abTruncation
  refine add_nonneg (by positivity) (div_nonneg (List.sum_nonneg fun z hz => ?_) (by positivity))
  obtain ⟨i, _, rfl⟩ := List.mem_map.1 hz
  positivity

theorem ab_runs_near (hu : 0 ≤ u) (hfl : Rounds u fl) (hw : ∀ q, 0 ≤ w q) (hJ : Convex ℝ J)
    (hy : SmoothDuring I w Q y J k D) (hD : ∀ j, 0 ≤ D j) {L e X T : Rat} (hL : 0 ≤ L) (he : 0 ≤ e) (hX : 0 ≤ X) (hT : 0 ≤ T)
    {σ : Type} {p : ProgOver σ DataArray} (inProps outProps : PropDict) (inst : String) (tid : Bool)
    {b : Dict DataArray → EState DataArray → EState DataArray}
    (hb : ∀ d x q, Q q → Dict.get? (b d x) q = Dict.get? x q) (dt : Int)
    {Z : EState DataArray → EState DataArray → Prop} {M : ℝ → Rat → σ → EState DataArray → Prop}
    (hZ : ∀ ab s x ab' s' st d new, tsCallO (roundedArith fl conv) inProps outProps inst tid
      (abCallO (roundedArith fl conv) p) ab s x dt = (ab', s', st, .ok (d, new)) → Z x (b d new))
    (hM : ∀ t E E' s x, E ≤ E' → M t E s x → M t E' s x) :
    ∀ (n : Nat) (E : Rat) (ab : ABOver DataArray) (s : σ) (x : EState DataArray) (τ : ℝ) (abf : ABOver DataArray) (sf : σ)
      (xf : EState DataArray), 0 ≤ E → ab.order = k → ab.hist.length < k →
      (∀ i ≤ n, τ + i * (seconds dt : ℝ) ∈ J) → (∀ j < ab.hist.length, τ + -((j + 1 : ℕ) * (seconds dt : ℝ)) ∈ J) →
      (∀ j < ab.hist.length, NearDerivative I w Q y (L * E + e) (τ + -((j + 1 : ℕ) * (seconds dt : ℝ)))
        (ab.hist.reverse.getD j [])) →
      (u ≠ 0 → ∀ t ∈ ab.hist, TendSized I w T t) → NearSolution I w Q y E τ x → M τ E s x →
      (∀ i < n, ∀ abi si xi, runOver (tsCallO (roundedArith fl conv) inProps outProps inst tid
          (abCallO (roundedArith fl conv) p)) b dt i ab s x = (abi, si, .ok xi) → (u ≠ 0 → StateSized I w X xi) ∧
        ∀ r t, (p si xi dt).2 = .ok r → convertTendenciesO (roundedArith fl conv) xi r.1 = .ok t →
          ∀ E, 0 ≤ E → NearSolution I w Q y E (τ + i * (seconds dt : ℝ)) xi → M (τ + i * (seconds dt : ℝ)) E si xi →
            (u ≠ 0 → TendSized I w T t) ∧ NearDerivative I w Q y (L * E + e) (τ + i * (seconds dt : ℝ)) t ∧
            ∀ x', Z xi x' → M (τ + (i + 1 : ℕ) * (seconds dt : ℝ)) E (p si xi dt).1 x') →
      runOver (tsCallO (roundedArith fl conv) inProps outProps inst tid (abCallO (roundedArith fl conv) p)) b dt n
        ab s x = (abf, sf, .ok xf) →
      NearSolution I w Q y ((1 + |seconds dt| * (20 / 3) * L) ^ n * (E + ((List.range n).map fun i =>
        addedError u e X T (seconds dt) + abStepError k D (seconds dt) (ab.hist.length + i)).sum))
        (τ + n * (seconds dt : ℝ)) xf := by
  intro n
  induction n with
  | zero =>
    intro E ab s x τ abf sf xf _ _ _ _ _ _ _ hx _ _ h
    unfold runOver at h
    simp only [Prod.mk.injEq, Except.ok.injEq] at h
    rw [← h.2.2]
    simpa using hx
  | succ n ih =>
    intro E ab s x τ abf sf xf hE hord hlen hτ hτp hh hTt hx hMx hrun h
    obtain ⟨hXx, hpx⟩ := hrun 0 (by omega) ab s x rfl
    unfold runOver at h
    rcases hc : tsCallO (roundedArith fl conv) inProps outProps inst tid
      (abCallO (roundedArith fl conv) p) ab s x dt with ⟨ab1, s1, st1, er | ⟨d1, new⟩⟩
    · rw [hc] at h; cases h
    rw [hc] at h
    dsimp only at h
    obtain ⟨d, m, hk, hnew⟩ := tsCallO_keeps hc
    unfold abCallO at hk
    simp only [Prod.mk.injEq] at hk
    obtain ⟨a1, a2, a3, a4⟩ := hk
    subst a3
    obtain ⟨r, t, nn, hr, ht, hn, hm, _, hs1, ho1, _, hi1⟩ := abOver_ok (A := roundedArith fl conv) (prog := p)
      (ab := ab) (s := s) (state := x) (dt := dt) (ab' := ab1) (s' := s1) (diag := d) (new := m)
      (by rw [← a1, ← a2, ← a4])
    have hD0 : 0 ≤ L * E + e := add_nonneg (mul_nonneg hL hE) he
    obtain ⟨hTx, htn, hMn⟩ := hpx r t hr ht E hE (by simpa using hx) (by simpa using hMx)
    rw [Nat.cast_zero, zero_mul, add_zero] at htn
    have hMn := hMn _ (hZ _ _ _ _ _ _ _ _ hc)
    rw [zero_add, Nat.cast_one, one_mul, ← hs1] at hMn
    have hall : ∀ j < (ab.hist ++ [t]).length, NearDerivative I w Q y (L * E + e) (τ + -(j * (seconds dt : ℝ)))
        ((ab.hist ++ [t]).reverse.getD j []) := by
      intro j hj
      rw [List.reverse_append, List.reverse_singleton, List.singleton_append]
      cases j with
      | zero => simpa using htn
      | succ j =>
        rw [List.getD_cons_succ]
        exact hh j (by simpa using hj)
    have hallJ : ∀ j < (ab.hist ++ [t]).length, τ + -(j * (seconds dt : ℝ)) ∈ J := by
      intro j hj
      cases j with
      | zero => simpa using hτ 0 (by omega)
      | succ j => exact hτp j (by simpa using hj)
    have hallT : u ≠ 0 → ∀ v ∈ ab.hist ++ [t], TendSized I w T v := by
      intro hu0 v hv
      rcases List.mem_append.1 hv with hv | hv
      · exact hTt hu0 v hv
      · rw [List.mem_singleton.1 hv]
        exact hTx hu0
    have hτ1 : τ + (seconds dt : ℝ) ∈ J := by simpa using hτ 1 (by omega)
    obtain ⟨hstep, hQn⟩ := ab_step_near hu hfl hw hJ hy hT (le_of_eq hord) hτ1 hallJ hall hallT hx hXx hn
    have hlen1 : (ab.hist ++ [t]).length = ab.hist.length + 1 := by simp
    rw [hlen1, hord] at hstep
    have hg0 : 0 ≤ addedError u e X T (seconds dt) := by
      unfold addedError
      have := one_le_pow hu 8
      have hdt := abs_nonneg (seconds dt)
      exact add_nonneg (mul_nonneg (mul_nonneg hdt (by norm_num)) he)
        (mul_nonneg (by linarith) (add_nonneg hX (mul_nonneg (mul_nonneg hdt (by norm_num)) hT)))
    have hf0 : ∀ i, 0 ≤ abStepError k D (seconds dt) i := fun i =>
      mul_nonneg (mul_nonneg (abTruncation_nonneg _) (hD _)) (by positivity)
    have hK : 1 ≤ 1 + |seconds dt| * (20 / 3) * L := by
      have := mul_nonneg (mul_nonneg (abs_nonneg (seconds dt)) (by norm_num : (0 : Rat) ≤ 20 / 3)) hL
      linarith
    generalize hEn : (1 + |seconds dt| * (20 / 3) * L) * E + addedError u e X T (seconds dt) +
      abStepError k D (seconds dt) (ab.hist.length + 0) = E1
    have hE1 : E ≤ E1 := by
      rw [← hEn]
      have := hf0 (ab.hist.length + 0)
      nlinarith
    have hstep1 : NearSolution I w Q y E1 (τ + (seconds dt : ℝ)) nn := by
      refine hstep.mono hw (le_of_eq ?_)
      rw [← hEn]
      unfold addedError abStepError
      ring
    have hget : ∀ q, Q q → Dict.get? (b d1 new) q = Dict.get? nn q := by
      intro q hq
      obtain ⟨c1, c2, _⟩ := copyUntouchedO_spec x nn
      obtain ⟨_, c5, _⟩ := copyUntouchedO_spec x (copyUntouchedO x nn)
      rw [hb d1 new q hq, hnew, hm, c5 q ((c1 q).2 (Or.inr (hQn q hq))), c2 q (hQn q hq)]
    have hnext : NearSolution I w Q y E1 (τ + (seconds dt : ℝ)) (b d1 new) := by
      intro q hq
      rw [hget q hq]
      exact hstep1 q hq
    have hDm : L * E + e ≤ L * E1 + e := by
      have := mul_le_mul_of_nonneg_left hE1 hL
      linarith
    have hback : ∀ j : ℕ, τ + (seconds dt : ℝ) + -((j + 1 : ℕ) * (seconds dt : ℝ)) = τ + -(j * (seconds dt : ℝ)) := by
      intro j
      push_cast
      ring
    have hforw : ∀ i : ℕ, τ + (seconds dt : ℝ) + i * (seconds dt : ℝ) = τ + (i + 1 : ℕ) * (seconds dt : ℝ) := by
      intro i
      push_cast
      ring
    -- the memory afterwards: the latest tendencies
    have hmem : ab1.hist.length < k ∧ ab1.hist.length ≤ ab.hist.length + 1 ∧
        (∀ i, min k (ab1.hist.length + i + 1) = min k (ab.hist.length + (i + 1) + 1)) ∧
        (∀ j < ab1.hist.length, ab1.hist.reverse.getD j [] = (ab.hist ++ [t]).reverse.getD j []) ∧
        ∀ v ∈ ab1.hist, v ∈ ab.hist ++ [t] := by
      rw [hi1, hord]
      split
      · rename_i hfull
        rw [List.length_tail]
        refine ⟨by omega, by omega, fun i => by omega, fun j hj => ?_, fun v hv => List.mem_of_mem_tail hv⟩
        have hdrop : (ab.hist ++ [t]).tail.reverse = (ab.hist ++ [t]).reverse.dropLast := by
          cases ab.hist ++ [t] with
          | nil => rfl
          | cons a l => rw [List.tail_cons, List.reverse_cons, List.dropLast_concat]
        rw [hdrop, List.getD_eq_getElem?_getD, List.getD_eq_getElem?_getD, List.getElem?_dropLast,
          if_pos (by rw [List.length_reverse]; exact hj)]
      · rename_i hfull
        refine ⟨by omega, by omega, fun i => by omega, fun j _ => rfl, fun v hv => hv⟩
    obtain ⟨m1, m2, m3, m4, m5⟩ := hmem
    have hres := ih E1 ab1 s1 (b d1 new) (τ + (seconds dt : ℝ)) abf sf xf (le_trans hE hE1) (by rw [ho1, hord]) m1
      (fun i hi => by rw [hforw]; exact hτ (i + 1) (by omega))
      (fun j hj => by rw [hback]; exact hallJ j (by omega))
      (fun j hj => by
        rw [hback, m4 j hj]
        exact (hall j (by omega)).mono hw hDm)
      (fun hu0 v hv => hallT hu0 v (m5 v hv)) hnext (hM _ _ _ _ _ hE1 hMn)
      (fun i hi abi si xi hri => by
        rw [hforw, hforw]
        refine hrun (i + 1) (by omega) abi si xi ?_
        unfold runOver
        rw [hc]
        exact hri) h
    rw [hforw] at hres
    refine hres.mono hw ?_
    have hsum : (fun i => addedError u e X T (seconds dt) + abStepError k D (seconds dt) (ab1.hist.length + i)) =
        fun i => addedError u e X T (seconds dt) + abStepError k D (seconds dt) (ab.hist.length + (i + 1)) := by
      funext i
      unfold abStepError
      rw [m3 i]
    rw [hsum, ← hEn]
    exact growth_sum hK hg0 (f := fun i => abStepError k D (seconds dt) (ab.hist.length + i)) (fun i => hf0 _) n

/-- C115, C118: the theorem `ab_run_converges` for components that remember things: `M t E s x` says that what they remember
(in `s`) at the time `t`, when the state is `x`, is good enough for tendencies within `L E + e`. -/
theorem ab_run_converges_memory (hu : 0 ≤ u) (hfl : Rounds u fl) (conv : DataArray → String → Except Err DataArray)
    (hw : ∀ q, 0 ≤ w q) (hJ : Convex ℝ J) (hy : SmoothDuring I w Q y J k D) (hD : ∀ j, 0 ≤ D j)
    {L e X T : Rat} (hL : 0 ≤ L) (he : 0 ≤ e) (hX : 0 ≤ X) (hT : 0 ≤ T)
    {σ : Type} {p : ProgOver σ DataArray} (inProps outProps : PropDict) (inst : String) (tid : Bool)
    {b : Dict DataArray → EState DataArray → EState DataArray}
    (hb : ∀ d x q, Q q → Dict.get? (b d x) q = Dict.get? x q) (dt : Int)
    {Z : EState DataArray → EState DataArray → Prop} {M : ℝ → Rat → σ → EState DataArray → Prop}
    (hZ : ∀ ab s x ab' s' st d new, tsCallO (roundedArith fl conv) inProps outProps inst tid
      (abCallO (roundedArith fl conv) p) ab s x dt = (ab', s', st, .ok (d, new)) → Z x (b d new))
    (hM : ∀ t E E' s x, E ≤ E' → M t E s x → M t E' s x) (n : Nat) (hk : 1 ≤ k)
    {E0 : Rat} (hE0 : 0 ≤ E0) (s : σ) (x : EState DataArray) (t0 : ℝ) {abf : ABOver DataArray} {sf : σ}
    {xf : EState DataArray} (htimes : ∀ i ≤ n, t0 + i * (seconds dt : ℝ) ∈ J) (hx : NearSolution I w Q y E0 t0 x)
    (hMx : M t0 E0 s x)
    (hrun : ∀ i < n, ∀ abi si xi, runOver (tsCallO (roundedArith fl conv) inProps outProps inst tid
          (abCallO (roundedArith fl conv) p)) b dt i { order := k } s x = (abi, si, .ok xi) →
        (u ≠ 0 → StateSized I w X xi) ∧
        ∀ r t, (p si xi dt).2 = .ok r → convertTendenciesO (roundedArith fl conv) xi r.1 = .ok t →
          ∀ E, 0 ≤ E → NearSolution I w Q y E (t0 + i * (seconds dt : ℝ)) xi → M (t0 + i * (seconds dt : ℝ)) E si xi →
            (u ≠ 0 → TendSized I w T t) ∧ NearDerivative I w Q y (L * E + e) (t0 + i * (seconds dt : ℝ)) t ∧
            ∀ x', Z xi x' → M (t0 + (i + 1 : ℕ) * (seconds dt : ℝ)) E (p si xi dt).1 x')
    (h : runOver (tsCallO (roundedArith fl conv) inProps outProps inst tid (abCallO (roundedArith fl conv) p)) b dt n
        { order := k } s x = (abf, sf, .ok xf)) :
    NearSolution I w Q y ((1 + |seconds dt| * (20 / 3) * L) ^ n * (E0 + ((List.range n).map fun i =>
      abStepError k D (seconds dt) i + addedError u e X T (seconds dt)).sum)) (t0 + n * (seconds dt : ℝ)) xf := by
  have := ab_runs_near hu hfl hw hJ hy hD hL he hX hT inProps outProps inst tid hb dt hZ hM n E0 { order := k } s x t0 abf
    sf xf hE0 rfl (by show 0 < k; omega) htimes (fun j hj => by cases hj) (fun j hj => by cases hj) (fun _ t ht => by cases ht)
    hx hMx hrun h
  refine this.mono hw (le_of_eq ?_)
  congr 3
  refine List.map_congr_left fun i _ => ?_
  rw [List.length_nil, Nat.zero_add, add_comm]

/-- C115: a run of `n` steps of a new AdamsBashforth of order `k` in rounded (or, with `u = 0`, exact) arithmetic ends
within `K^n (E0 + sum over the steps of (truncation error + other errors))` of every solution of the differential
equation that starts within `E0` of the initial state, `K = 1 + 20/3 dt L`, if the components compute its right hand
side: on states within `E` of the solution they give tendencies within `L E + e` of its derivative. -/
theorem ab_run_converges (hu : 0 ≤ u) (hfl : Rounds u fl) (conv : DataArray → String → Except Err DataArray)
    (hw : ∀ q, 0 ≤ w q) (hJ : Convex ℝ J) (hy : SmoothDuring I w Q y J k D) (hD : ∀ j, 0 ≤ D j)
    {L e X T : Rat} (hL : 0 ≤ L) (he : 0 ≤ e) (hX : 0 ≤ X) (hT : 0 ≤ T)
    {σ : Type} {p : ProgOver σ DataArray} (inProps outProps : PropDict) (inst : String) (tid : Bool)
    {b : Dict DataArray → EState DataArray → EState DataArray}
    (hb : ∀ d x q, Q q → Dict.get? (b d x) q = Dict.get? x q) (dt : Int) (n : Nat) (hk : 1 ≤ k)
    {E0 : Rat} (hE0 : 0 ≤ E0) (s : σ) (x : EState DataArray) (t0 : ℝ) {abf : ABOver DataArray} {sf : σ}
    {xf : EState DataArray} (htimes : ∀ i ≤ n, t0 + i * (seconds dt : ℝ) ∈ J) (hx : NearSolution I w Q y E0 t0 x)
    (hrun : ∀ i < n, ∀ abi si xi, runOver (tsCallO (roundedArith fl conv) inProps outProps inst tid
          (abCallO (roundedArith fl conv) p)) b dt i { order := k } s x = (abi, si, .ok xi) →
        (u ≠ 0 → StateSized I w X xi) ∧
        ∀ r t, (p si xi dt).2 = .ok r → convertTendenciesO (roundedArith fl conv) xi r.1 = .ok t →
          (u ≠ 0 → TendSized I w T t) ∧
          ∀ E, 0 ≤ E → NearSolution I w Q y E (t0 + i * (seconds dt : ℝ)) xi →
            NearDerivative I w Q y (L * E + e) (t0 + i * (seconds dt : ℝ)) t)
    (h : runOver (tsCallO (roundedArith fl conv) inProps outProps inst tid (abCallO (roundedArith fl conv) p)) b dt n
        { order := k } s x = (abf, sf, .ok xf)) :
    NearSolution I w Q y ((1 + |seconds dt| * (20 / 3) * L) ^ n * (E0 + ((List.range n).map fun i =>
      abStepError k D (seconds dt) i + addedError u e X T (seconds dt)).sum)) (t0 + n * (seconds dt : ℝ)) xf := by
  exact ab_run_converges_memory hu hfl conv hw hJ hy hD hL he hX hT inProps outProps inst tid hb dt
    (Z := fun _ _ => True) (M := fun _ _ _ _ => True) (fun _ _ _ _ _ _ _ _ _ => trivial) (fun _ _ _ _ _ _ _ => trivial)
    n hk hE0 s x t0 htimes hx trivial
    (fun i hi abi si xi hri => ⟨(hrun i hi abi si xi hri).1, fun r t hr ht E hE hne _ =>
      ⟨((hrun i hi abi si xi hri).2 r t hr ht).1, ((hrun i hi abi si xi hri).2 r t hr ht).2 E hE hne, fun _ _ => trivial⟩⟩) h

theorem abStepError_sum (D : Nat → Rat) (h : Rat) (n : Nat) :
    ((List.range n).map fun i => abStepError 1 D h i).sum = n * (D 2 / 2 * |h| ^ 2) ∧
    ((List.range (n + 1)).map fun i => abStepError 2 D h i).sum = D 2 / 2 * |h| ^ 2 + n * (5 / 12 * D 3 * |h| ^ 3) := by
  have c1 : abTruncation 1 = 1 / 2 := by decide +kernel
  have c2 : abTruncation 2 = 5 / 12 := by decide +kernel
  have e1 : ∀ i, abStepError 1 D h i = D 2 / 2 * |h| ^ 2 := by
    intro i
    unfold abStepError
    rw [show min 1 (i + 1) = 1 by omega, c1]
    ring
  have e2 : abStepError 2 D h 0 = D 2 / 2 * |h| ^ 2 := by
    unfold abStepError
    rw [show min 2 (0 + 1) = 1 from rfl, c1]
    ring
  have e3 : ∀ i, abStepError 2 D h (i + 1) = 5 / 12 * D 3 * |h| ^ 3 := by
    intro i
    unfold abStepError
    rw [show min 2 (i + 1 + 1) = 2 by omega, c2]
  constructor
  · simp only [e1, List.map_const', List.sum_replicate, List.length_range, nsmul_eq_mul]
  · rw [List.range_succ_eq_map, List.map_cons, List.sum_cons, List.map_map, e2]
    have : (fun i => abStepError 2 D h i) ∘ Nat.succ = fun _ => 5 / 12 * D 3 * |h| ^ 3 := funext fun i => e3 i
    rw [this, List.map_const', List.sum_replicate, List.length_range, nsmul_eq_mul]

/-- Runs in exact arithmetic of order 1 and 2 with components that compute the right hand side exactly, over the time
`span = n dt`: errors of first and second order in the timestep, however many steps are taken. -/
theorem ab_run_converges_exact (R : Registry) (hw : ∀ q, 0 ≤ w q) (hJ : Convex ℝ J) {k : Nat} (hk : k = 1 ∨ k = 2)
    (hy : SmoothDuring I w Q y J k D) (hD : ∀ j, 0 ≤ D j) {L : Rat} (hL : 0 ≤ L) {σ : Type} {p : ProgOver σ DataArray}
    (inProps outProps : PropDict) (inst : String) (tid : Bool) {b : Dict DataArray → EState DataArray → EState DataArray}
    (hb : ∀ d x q, Q q → Dict.get? (b d x) q = Dict.get? x q) (dt : Int) (n : Nat) (hn : 1 ≤ n) (s : σ)
    (x : EState DataArray) (t0 : ℝ) {abf : ABOver DataArray} {sf : σ} {xf : EState DataArray}
    (htimes : ∀ i ≤ n, t0 + i * (seconds dt : ℝ) ∈ J) (hx : NearSolution I w Q y 0 t0 x)
    (hrhs : ∀ i < n, ∀ si xi r t E, (p si xi dt).2 = .ok r → convertTendenciesO (dataArrayArith R) xi r.1 = .ok t →
      0 ≤ E → NearSolution I w Q y E (t0 + i * (seconds dt : ℝ)) xi →
        NearDerivative I w Q y (L * E) (t0 + i * (seconds dt : ℝ)) t)
    (h : runOver (tsCallO (dataArrayArith R) inProps outProps inst tid (abCallO (dataArrayArith R) p)) b dt n
        { order := k } s x = (abf, sf, .ok xf)) :
    ∀ q, Q q → ∃ a, Dict.get? xf q = some (.da a) ∧ ∀ ix, I ix →
      |(a.at' ix : ℝ) - y 0 q ix (t0 + n * (seconds dt : ℝ))| ≤ Real.exp (20 / 3 * L * (n * |(seconds dt : ℝ)|)) *
        (if k = 1 then D 2 / 2 * (n * |(seconds dt : ℝ)|) * |(seconds dt : ℝ)|
          else (D 2 / 2 + 5 / 12 * D 3 * (n * |(seconds dt : ℝ)|)) * |(seconds dt : ℝ)| ^ 2) * w q := by
  rw [← roundedArith_id R] at h hrhs
  have main := ab_run_converges (u := 0) (fl := id) (le_refl 0) id_rounds _ hw hJ hy hD hL (le_refl (0 : Rat))
    (le_refl (0 : Rat)) (le_refl (0 : Rat)) inProps outProps inst tid hb dt n (by omega) (le_refl (0 : Rat)) s x t0 htimes hx
    (fun i hi abi si xi _ => ⟨fun h0 => absurd rfl h0, fun r t hr ht => ⟨fun h0 => absurd rfl h0, fun E hE hne => by
      rw [add_zero]
      exact hrhs i hi si xi r t E hr ht hE hne⟩⟩) h
  have hadd : addedError 0 0 0 0 (seconds dt) = 0 := by
    unfold addedError
    simp
  simp only [hadd, add_zero, zero_add] at main
  intro q hq
  obtain ⟨a, ha, hv⟩ := main q hq
  refine ⟨a, ha, fun ix hix => le_trans (hv ix hix) ?_⟩
  have hwq : (0 : ℝ) ≤ w q := by exact_mod_cast hw q
  refine mul_le_mul_of_nonneg_right ?_ hwq
  have hh : (0 : ℝ) ≤ |(seconds dt : ℝ)| := abs_nonneg _
  have hL' : (0 : ℝ) ≤ L := by exact_mod_cast hL
  have hD2 : (0 : ℝ) ≤ D 2 := by exact_mod_cast hD 2
  have hD3 : (0 : ℝ) ≤ D 3 := by exact_mod_cast hD 3
  have hK : (1 + |(seconds dt : ℝ)| * (20 / 3) * L) ^ n ≤ Real.exp (20 / 3 * L * (n * |(seconds dt : ℝ)|)) := by
    have h1 : 1 + |(seconds dt : ℝ)| * (20 / 3) * L ≤ Real.exp (|(seconds dt : ℝ)| * (20 / 3) * L) := by
      have := Real.add_one_le_exp (|(seconds dt : ℝ)| * (20 / 3) * L)
      linarith
    refine le_trans (pow_le_pow_left₀ (by positivity) h1 n) (le_of_eq ?_)
    rw [← Real.exp_nat_mul]
    congr 1
    ring
  obtain ⟨n, rfl⟩ : ∃ m, n = m + 1 := ⟨n - 1, by omega⟩
  push_cast at hK
  rcases hk with rfl | rfl
  · rw [(abStepError_sum D (seconds dt) (n + 1)).1, if_pos rfl]
    push_cast
    refine mul_le_mul hK (le_of_eq (by ring)) (by positivity) (le_of_lt (Real.exp_pos _))
  · rw [(abStepError_sum D (seconds dt) n).2, if_neg (by norm_num)]
    push_cast
    refine mul_le_mul hK ?_ (by positivity) (le_of_lt (Real.exp_pos _))
    have : (0 : ℝ) ≤ 5 / 12 * D 3 * |(seconds dt : ℝ)| ^ 3 := by positivity
    nlinarith

/-! ## Non-vacuity -/

/-- the solution of `T' = -T / 10`, `T(0) = 7`, with its derivatives -/
noncomputable def Demo.fading : Trajectory := fun j _ _ t => (-1 / 10 : ℝ) ^ j * (7 * Real.exp (-(t / 10)))

/-- it is smooth at all times from 0 on -/
theorem Demo.fading_smooth (k : Nat) :
    SmoothDuring Demo.origin (fun _ => 1) (· = "T") Demo.fading (Set.Ici 0) k (fun j => 7 * (1 / 10) ^ j) where
  deriv := by
    intro j _ q _ ix _ t _
    have h1 : HasDerivAt (fun t : ℝ => -(t / 10)) (-(1 / 10)) t := ((hasDerivAt_id t).div_const 10).neg
    have h2 := ((h1.exp).const_mul 7).const_mul ((-1 / 10 : ℝ) ^ j)
    unfold Demo.fading
    refine h2.congr_deriv ?_
    rw [pow_succ]
    ring
  bound := by
    intro j _ q _ ix _ t ht
    unfold Demo.fading
    have he : Real.exp (-(t / 10)) ≤ 1 := Real.exp_le_one_iff.2 (by
      have : (0 : ℝ) ≤ t := ht
      linarith)
    have hc : |(-1 / 10 : ℝ) ^ j| = (1 / 10) ^ j := by
      rw [abs_pow]
      norm_num [abs_of_neg]
    rw [abs_mul, hc, abs_of_pos (by positivity)]
    push_cast
    have : (0 : ℝ) ≤ (1 / 10) ^ j := by positivity
    nlinarith

/-- the component computes the right hand side, with two roundings -/
theorem Demo.fades_rhs (hu : 0 ≤ u) (hfl : Rounds u fl) {X E : Rat} {x : EState DataArray} {t : ℝ}
    {r : Dict DataArray × Dict DataArray} {v : Dict DataArray} {dt : Int}
    (hX : u ≠ 0 → StateSized Demo.origin (fun _ => 1) X x)
    (hx : NearSolution Demo.origin (fun _ => 1) (· = "T") Demo.fading E t x)
    (hr : (Demo.fades (roundedArith fl conv) () x dt).2 = .ok r)
    (hv : convertTendenciesO (roundedArith fl conv) x r.1 = .ok v) :
    NearDerivative Demo.origin (fun _ => 1) (· = "T") Demo.fading (1 / 10 * E + ((1 + u) ^ 2 - 1) * (1 / 10 * X)) t v := by
  intro q hq
  subst hq
  obtain ⟨a, ha, hr⟩ := Exc.bind_ok_iff.1 hr
  cases hr
  have hv : [("T", (roundedArith fl conv).setAttrs ((roundedArith fl conv).smul (-1 / 10) a) [])] = v := by
    cases hv; rfl
  subst hv
  refine ⟨List.mem_singleton.2 rfl, fun ix hix => ?_⟩
  obtain ⟨a', ha', hn⟩ := hx "T" rfl
  rw [EState.da_ok.1 ha] at ha'
  cases ha'
  have hval : tval [("T", (roundedArith fl conv).setAttrs ((roundedArith fl conv).smul (-1 / 10) a) [])] "T" ix =
      fl (fl (-1 / 10) * a.at' ix) := rfl
  rw [hval]
  have hc : |(-1 / 10 : Rat)| = 1 / 10 := by norm_num [abs_of_neg]
  have n1 := (Near.exact (u := u) (a.at' ix)).smul hu hfl (-1 / 10)
  rw [hc] at n1
  have n2 : |fl (fl (-1 / 10) * a.at' ix) - -1 / 10 * a.at' ix| ≤ ((1 + u) ^ 2 - 1) * (1 / 10 * X) := by
    by_cases hu0 : u = 0
    · have := n1.err
      rw [hu0] at this ⊢
      simpa using this
    · have hXa := hX hu0 "T" a (EState.da_ok.1 ha) ix hix
      rw [mul_one] at hXa
      have := (n1.mono hu (le_refl _) (mul_le_mul_of_nonneg_left hXa (by norm_num))).err
      rwa [zero_add] at this
  have n2' : |((fl (fl (-1 / 10) * a.at' ix) : Rat) : ℝ) - ((-1 / 10 * a.at' ix : Rat) : ℝ)| ≤
      ((((1 + u) ^ 2 - 1) * (1 / 10 * X) : Rat) : ℝ) := by
    rw [← Rat.cast_sub, ← Rat.cast_abs]
    exact_mod_cast n2
  have n3 : |((-1 / 10 * a.at' ix : Rat) : ℝ) - Demo.fading 1 "T" ix t| ≤ 1 / 10 * E := by
    have e : ((-1 / 10 * a.at' ix : Rat) : ℝ) - Demo.fading 1 "T" ix t =
        -(1 / 10) * ((a.at' ix : ℝ) - Demo.fading 0 "T" ix t) := by
      unfold Demo.fading
      push_cast
      ring
    rw [e, abs_mul, abs_neg, abs_of_pos (by norm_num : (0 : ℝ) < 1 / 10)]
    have := hn ix hix
    push_cast at this
    linarith
  have n4 := abs_sub_le ((fl (fl (-1 / 10) * a.at' ix) : Rat) : ℝ) ((-1 / 10 * a.at' ix : Rat) : ℝ) (Demo.fading 1 "T" ix t)
  push_cast at n2' n3 n4 ⊢
  linarith

theorem Demo.fading_starts : NearSolution Demo.origin (fun _ => 1) (· = "T") Demo.fading 0 0 (Demo.scalarT 7) := by
  intro q hq
  subst hq
  refine ⟨_, rfl, fun ix _ => ?_⟩
  show |((7 : Rat) : ℝ) - Demo.fading 0 "T" ix 0| ≤ _
  unfold Demo.fading
  norm_num

/-- two steps of order 2 in `float64` arithmetic from 7 K: within 0.12 K of `7 exp(-0.2) K`, all hypotheses of
`ab_run_converges` met -/
example {abf : ABOver DataArray} {xf : EState DataArray}
    (h : runOver (tsCallO (roundedArith binary64 Demo.asIs) [] [] "" false
      (abCallO (roundedArith binary64 Demo.asIs) (Demo.fades (roundedArith binary64 Demo.asIs)))) (fun _ s => s)
      1000000 2 { order := 2 } () (Demo.scalarT 7) = (abf, (), .ok xf)) :
    NearSolution Demo.origin (fun _ => 1) (· = "T") Demo.fading (3 / 25) 2 xf := by
  have hs : seconds 1000000 = 1 := by decide +kernel
  have := ab_run_converges (u := 2 ^ (-53 : Int)) (by positivity) binary64_rounds Demo.asIs (fun _ => by norm_num)
    (convex_Ici 0) (Demo.fading_smooth 2) (fun j => by positivity) (L := 1 / 10)
    (e := ((1 + 2 ^ (-53 : Int)) ^ 2 - 1) * (1 / 10 * 7)) (X := 7) (T := 1) (by norm_num) (by decide +kernel) (by norm_num)
    (by norm_num) [] [] "" false (b := fun _ s => s) (fun _ _ _ _ => rfl) 1000000 2 (by norm_num) (le_refl (0 : Rat)) ()
    (Demo.scalarT 7) 0
    (fun i _ => by
      rw [hs]
      show (0 : ℝ) ≤ 0 + i * ((1 : Rat) : ℝ)
      push_cast
      positivity) Demo.fading_starts
    (by
      intro i hi abi si xi hrun
      have hsm : Demo.small xi = true := by
        rcases (by omega : i = 0 ∨ i = 1) with rfl | rfl
        · cases hrun
          decide +kernel
        · have ht : Exc.test (runOver (tsCallO (roundedArith binary64 Demo.asIs) [] [] "" false
            (abCallO (roundedArith binary64 Demo.asIs) (Demo.fades (roundedArith binary64 Demo.asIs)))) (fun _ s => s)
            1000000 1 { order := 2 } () (Demo.scalarT 7)).2.2 Demo.small = true := by decide +kernel
          rw [hrun] at ht
          exact ht
      obtain ⟨h1, h2⟩ := Demo.small_sized hsm
      exact ⟨fun _ => h1, fun r t hr ht => ⟨fun _ => h2 r t hr ht, fun E _ hne =>
        Demo.fades_rhs (by positivity) binary64_rounds (fun _ => h1) hne hr ht⟩⟩) h
  rw [hs] at this
  have htime : (0 : ℝ) + (2 : ℕ) * ((1 : Rat) : ℝ) = 2 := by norm_num
  rw [htime] at this
  exact this.mono (fun _ => by norm_num) (by decide +kernel)

/-- a run of any number of steps of order 2 in exact arithmetic: an error of second order in the timestep -/
example (dt : Int) (hdt : 0 ≤ dt) (n : Nat) (hn : 1 ≤ n) {abf : ABOver DataArray} {xf : EState DataArray}
    (h : runOver (tsCallO (dataArrayArith Demo.reg) [] [] "" false
      (abCallO (dataArrayArith Demo.reg) (Demo.fades (dataArrayArith Demo.reg)))) (fun _ s => s)
      dt n { order := 2 } () (Demo.scalarT 7) = (abf, (), .ok xf)) :
    ∃ a, Dict.get? xf "T" = some (.da a) ∧ |(a.at' (fun _ => 0) : ℝ) - 7 * Real.exp (-((n * (seconds dt : ℝ)) / 10))| ≤
      Real.exp (2 / 3 * (n * (seconds dt : ℝ))) * (7 / 200 + 7 / 2400 * (n * (seconds dt : ℝ))) * (seconds dt : ℝ) ^ 2 := by
  have hs0 : (0 : ℝ) ≤ (seconds dt : ℝ) := by
    unfold seconds
    push_cast
    have : (0 : ℝ) ≤ (dt : ℝ) := by exact_mod_cast hdt
    positivity
  obtain ⟨a, ha, hv⟩ := ab_run_converges_exact Demo.reg (fun _ => by norm_num) (convex_Ici 0) (Or.inr rfl)
    (Demo.fading_smooth 2) (fun j => by positivity) (L := 1 / 10) (by norm_num) [] [] "" false (b := fun _ s => s)
    (fun _ _ _ _ => rfl) dt n hn () (Demo.scalarT 7) 0
    (fun i _ => by
      show (0 : ℝ) ≤ 0 + i * (seconds dt : ℝ)
      positivity) Demo.fading_starts
    (fun i _ si xi r t E hr ht _ hne => by
      rw [← roundedArith_id] at hr ht
      have := Demo.fades_rhs (u := 0) (X := 0) (le_refl 0) id_rounds (fun h0 => absurd rfl h0) hne hr ht
      simpa using this) h "T" rfl
  refine ⟨a, ha, ?_⟩
  have := hv (fun _ => 0) rfl
  rw [if_neg (by norm_num), abs_of_nonneg hs0, zero_add] at this
  unfold Demo.fading at this
  rw [pow_zero, one_mul] at this
  refine le_trans this (le_of_eq ?_)
  push_cast
  rw [show (20 / 3 * (1 / 10) * (n * (seconds dt : ℝ)) : ℝ) = 2 / 3 * (n * (seconds dt : ℝ)) by ring]
  ring

end Verif

import Verif.Spec.LeapfrogErrors
import Verif.Props.LeapfrogConvergence
/-! # Rounding errors of Leapfrog runs: property C120 -/

namespace Verif

variable {u : Rat} {fl : Rat → Rat} {conv conv' : DataArray → String → Except Err DataArray} {I : (String → Nat) → Prop}
  {w : String → Rat} {L e X T : Rat}

/-! ## Values after a step -/

/-- Differences of the filtered and of the new value in exact arithmetic. -/
theorem lf_values_apart {ν α : Rat} (hν0 : 0 ≤ ν) (hν : ν ≤ 1) (hα0 : 0 ≤ α) (hα : α ≤ 1) {h o x v o' x' v' E D : Rat}
    (ho : |o - o'| ≤ E) (hx : |x - x'| ≤ E) (hv : |v - v'| ≤ D) :
    |(roundedLF id ν α h o x v).1 - (roundedLF id ν α h o' x' v').1| ≤ E + 2 * |h| * D ∧
    |(roundedLF id ν α h o x v).2 - (roundedLF id ν α h o' x' v').2| ≤ E + 2 * |h| * D := by
  have e1 : ∀ o x v, (roundedLF id ν α h o x v).1 = x + α * ν * (o - x + h * v) := by
    intro o x v
    unfold roundedLF
    simp only [id]
    ring
  have e2 : ∀ o x v, (roundedLF id ν α h o x v).2 = o + 2 * h * v - (1 - α) * ν * (o - x + h * v) := by
    intro o x v
    unfold roundedLF
    simp only [id]
    by_cases h1 : α = 1
    · rw [if_neg (by simpa using h1), h1]
      ring
    · rw [if_pos h1]
      ring
  have hg : |h * (v - v')| ≤ |h| * D := by
    rw [abs_mul]
    exact mul_le_mul_of_nonneg_left hv (abs_nonneg h)
  have hG : 0 ≤ |h| * D := le_trans (abs_nonneg _) hg
  have k : ∀ {m z Z : Rat}, 0 ≤ m → |z| ≤ Z → |m * z| ≤ m * Z := fun hm hz => by
    rw [abs_mul, abs_of_nonneg hm]
    exact mul_le_mul_of_nonneg_left hz hm
  have mean : ∀ {c f a b : Rat}, 0 ≤ c → c ≤ 1 → 0 ≤ f → f ≤ 2 → |a| ≤ E → |b| ≤ E →
      |(1 - c) * a + c * b + f * (h * (v - v'))| ≤ E + 2 * |h| * D := by
    intro c f a b hc hc1 hf hf2 ha hb
    have a1 := k (show 0 ≤ 1 - c by linarith) ha
    have b1 := k hc hb
    have g1 := k hf hg
    have f1 : f * (|h| * D) ≤ 2 * (|h| * D) := mul_le_mul_of_nonneg_right hf2 hG
    refine le_trans (abs_add_le _ _) (le_trans (add_le_add (le_trans (abs_add_le _ _) (add_le_add a1 b1)) (le_trans g1 f1))
      (le_of_eq (by ring)))
  have c1 : α * ν ≤ 1 := by nlinarith
  have c2 : (1 - α) * ν ≤ 1 := by nlinarith
  have c3 : 0 ≤ α * ν := mul_nonneg hα0 hν0
  have c4 : 0 ≤ (1 - α) * ν := mul_nonneg (by linarith) hν0
  rw [e1, e1, e2, e2]
  constructor
  · refine le_trans (le_of_eq (congrArg abs ?_)) (mean c3 c1 c3 (by linarith) hx ho)
    ring
  · refine le_trans (le_of_eq (congrArg abs ?_)) (mean c4 c2 (f := 2 - (1 - α) * ν) (by linarith) (by linarith) ho hx)
    ring

/-! ## Steps -/

theorem lfOver_world {σ : Type} {A : Arith DataArray} {prog : ProgOver σ DataArray} {lf lf' : LFOver DataArray} {s s' : σ}
    {state st : EState DataArray} {dt : Int} {o : Dict DataArray × EState DataArray}
    (h : LFOver.call A prog lf s state dt = (lf', s', st, .ok o)) : s' = (prog s state dt).1 := by
  unfold LFOver.call at h
  split at h
  · dsimp only at h
    cases hr : (prog s state dt).2 with
    | error e => rw [hr] at h; cases h
    | ok r =>
      rw [hr] at h
      dsimp only at h
      cases ht : convertTendenciesO A state r.1 with
      | error e => rw [ht] at h; cases h
      | ok t =>
        rw [ht] at h
        dsimp only at h
        cases ho : lf.old with
        | none =>
          rw [ho] at h
          dsimp only at h
          cases hn : stepEulerO A state t dt with
          | error e => rw [hn] at h; cases h
          | ok n => rw [hn] at h; cases h; rfl
        | some old =>
          rw [ho] at h
          dsimp only at h
          rcases hs : stepLeapfrogO A lf.strength lf.alpha old t dt t.keys state [] with ⟨st1, e | n⟩
          · rw [hs] at h; cases h
          · rw [hs] at h; cases h; rfl
  · cases h

section
variable {σ σ' : Type} {M : σ → σ' → Prop} {p : ProgOver σ DataArray} {p' : ProgOver σ' DataArray} {dt : Int}

/-- One call of two Leapfrogs whose states and earlier states are at most `E` apart. -/
theorem lf_step_within (hu : 0 ≤ u) (hfl : Rounds u fl) (hw : ∀ q, 0 ≤ w q) (hL : 0 ≤ L) (he : 0 ≤ e) (hX0 : 0 ≤ X) (hT0 : 0 ≤ T)
    (hp : Approximates I w X L e M (roundedArith fl conv) (roundedArith id conv') p p') (hd : GivesDicts p)
    {lf lf' lf1 lf1' : LFOver DataArray} (hν0 : 0 ≤ lf.strength) (hν : lf.strength ≤ 1) (hα0 : 0 ≤ lf.alpha) (hα : lf.alpha ≤ 1)
    (hs : lf'.strength = lf.strength) (ha : lf'.alpha = lf.alpha)
    {s s1 : σ} {s' s1' : σ'} {x st new y st' new' : EState DataArray} {diag diag' : Dict DataArray} {E : Rat} (hE : 0 ≤ E)
    (hM : M s s') (hxy : CloseStates I w E x y) (hold : CloseOld I w E lf.old lf'.old)
    (hX : StateSized I w X x) (hXo : u ≠ 0 → ∀ o, lf.old = some o → StateSized I w X o)
    (hT : u ≠ 0 → ∀ r t, (p s x dt).2 = .ok r → convertTendenciesO (roundedArith fl conv) x r.1 = .ok t → TendSized I w T t)
    (h : LFOver.call (roundedArith fl conv) p lf s x dt = (lf1, s1, st, .ok (diag, new)))
    (h' : LFOver.call (roundedArith id conv') p' lf' s' y dt = (lf1', s1', st', .ok (diag', new'))) :
    CloseStates I w ((1 + 2 * |seconds dt| * L) * E + lfAddedError u e X T (seconds dt)) new new' ∧
    CloseStates I w ((1 + 2 * |seconds dt| * L) * E + lfAddedError u e X T (seconds dt)) st st' := by
  obtain ⟨_, _, _, r, t, n, hr, ht, hnew, hcase⟩ := lfOver_ok h
  obtain ⟨_, _, _, r', t', n', hr', ht', hnew', hcase'⟩ := lfOver_ok h'
  have htt : TendWithin I w (L * E + e) t t' := hp.tend s s' x y dt E r r' t t' hM hxy hE hX hr hr' ht ht'
  have hg0 := lfAddedError_nonneg hu he hX0 hT0 (seconds dt)
  have hh := abs_nonneg (seconds dt)
  have hK : E ≤ (1 + 2 * |seconds dt| * L) * E + lfAddedError u e X T (seconds dt) := by
    have : 0 ≤ 2 * |seconds dt| * L * E := by positivity
    linarith
  -- rounded and exact values that are apart
  have join : ∀ {q : String} {z z' z'' : Rat},
      |z - z'| ≤ ((1 + u) ^ 11 - 1) * (3 * (X * w q) + 3 * (|seconds dt| * (T * w q))) →
      |z' - z''| ≤ E * w q + 2 * |seconds dt| * ((L * E + e) * w q) →
      |z - z''| ≤ ((1 + 2 * |seconds dt| * L) * E + lfAddedError u e X T (seconds dt)) * w q := by
    intro q z z' z'' h1 h2
    refine le_trans (abs_sub_le _ z' _) (le_trans (add_le_add h1 h2) (le_of_eq ?_))
    unfold lfAddedError
    ring
  rcases hcase with ⟨hnone, hst, hn⟩ | ⟨o, hsome, hn⟩
  · rcases hcase' with ⟨hnone', hst', hn'⟩ | ⟨o', hsome', hn'⟩
    swap
    · rw [hnone, hsome'] at hold
      exact hold.elim
    subst hst
    subst hst'
    refine ⟨?_, hxy.mono hw hK⟩
    unfold stepEulerO at hn hn'
    obtain ⟨k1, k2⟩ := stepKeysO_ok hn
    obtain ⟨k1', k2'⟩ := stepKeysO_ok hn'
    rw [hnew, hnew']
    refine hxy.copy hw hK ⟨fun q => by rw [k1, k1', htt.keys], ?_⟩
    intro q a b hqa hqb ix hix
    have hqt : q ∈ Dict.keys t := by rw [← k1]; exact Dict.mem_keys_of_get? hqa
    obtain ⟨a', hf, hga⟩ := k2 q hqt
    obtain ⟨b', hf', hgb⟩ := k2' q (by rw [← htt.keys]; exact hqt)
    rw [hqa] at hga
    cases hga
    rw [hqb] at hgb
    cases hgb
    obtain ⟨xa, hxa, hf⟩ := Exc.bind_ok_iff.1 hf
    obtain ⟨v, hv, hf⟩ := Exc.bind_ok_iff.1 hf
    obtain ⟨ya, hya, hf'⟩ := Exc.bind_ok_iff.1 hf'
    obtain ⟨v', hv', hf'⟩ := Exc.bind_ok_iff.1 hf'
    have hxa := EState.da_ok.1 hxa
    have hya := EState.da_ok.1 hya
    have hvv := htt.close q ix hix
    rw [tval_of_get (Dict.get_eq_ok.1 hv), tval_of_get (Dict.get_eq_ok.1 hv')] at hvv
    rw [(roundedAdd_ok hf).2.2 ix, (roundedAdd_ok hf').2.2 ix, roundedSmul_at, roundedSmul_at]
    have hwq := hw q
    have hround : |fl (xa.at' ix + fl (fl (seconds dt) * v.at' ix)) - (xa.at' ix + seconds dt * v.at' ix)| ≤
        ((1 + u) ^ 11 - 1) * (3 * (X * w q) + 3 * (|seconds dt| * (T * w q))) := by
      have nn := ((((Near.exact (u := u) (xa.at' ix)).mono hu (show 0 ≤ 0 + 2 by omega) (le_refl _)).add
        ((Near.exact (v.at' ix)).smul hu hfl (seconds dt))).round hu hfl)
      by_cases hu0 : u = 0
      · have := nn.err
        rw [hu0] at this ⊢
        simpa using this
      · have b1 := hX q xa hxa ix hix
        have b2 := hT hu0 r t hr ht q ix hix
        rw [tval_of_get (Dict.get_eq_ok.1 hv)] at b2
        have b3 := mul_le_mul_of_nonneg_left b2 hh
        have b4 : 0 ≤ X * w q := mul_nonneg hX0 hwq
        have b5 : 0 ≤ |seconds dt| * (T * w q) := mul_nonneg hh (mul_nonneg hT0 hwq)
        exact (nn.mono hu (show 0 + 2 + 1 ≤ 11 by omega) (by linarith)).err
    refine join hround ?_
    simp only [id]
    have hb0 := hxy.close q xa ya hxa hya ix hix
    have hhv := mul_le_mul_of_nonneg_left hvv hh
    have hpos : 0 ≤ |seconds dt| * ((L * E + e) * w q) := le_trans (mul_nonneg hh (abs_nonneg _)) hhv
    rw [show xa.at' ix + seconds dt * v.at' ix - (ya.at' ix + seconds dt * v'.at' ix) =
      (xa.at' ix - ya.at' ix) + seconds dt * (v.at' ix - v'.at' ix) by ring]
    refine le_trans (abs_add_le _ _) ?_
    rw [abs_mul]
    linarith
  · rcases hcase' with ⟨hnone', hst', hn'⟩ | ⟨o', hsome', hn'⟩
    · rw [hsome, hnone'] at hold
      exact hold.elim
    rw [hsome, hsome'] at hold
    have hold : CloseStates I w E o o' := hold
    have hnd : (Dict.keys t).Nodup := by
      rw [convertTendenciesO_keys ht]
      exact hd _ _ _ _ hr
    have hnd' : (Dict.keys t').Nodup := by rw [← htt.keys]; exact hnd
    obtain ⟨q1, q2⟩ := stepLeapfrogO_ok hnd hn
    obtain ⟨q1', q2'⟩ := stepLeapfrogO_ok hnd' hn'
    have main : ∀ q ∈ Dict.keys t, ∃ a b a' b', Dict.get? st q = some (.da a) ∧ Dict.get? n q = some (.da b) ∧
        Dict.get? st' q = some (.da a') ∧ Dict.get? n' q = some (.da b') ∧ ∀ ix, I ix →
        |a.at' ix - a'.at' ix| ≤ ((1 + 2 * |seconds dt| * L) * E + lfAddedError u e X T (seconds dt)) * w q ∧
        |b.at' ix - b'.at' ix| ≤ ((1 + 2 * |seconds dt| * L) * E + lfAddedError u e X T (seconds dt)) * w q := by
      intro q hq
      obtain ⟨oa, xa, a, b, ho, hxa, ga, gb, hv⟩ := q2 q hq
      obtain ⟨oa', xa', a', b', ho', hxa', ga', gb', hv'⟩ := q2' q (by rw [← htt.keys]; exact hq)
      refine ⟨a, b, a', b', ga, gb, ga', gb', fun ix hix => ?_⟩
      rw [(hv ix).1, (hv ix).2, (hv' ix).1, (hv' ix).2, hs, ha]
      obtain ⟨t1, t2⟩ := lf_values_apart hν0 hν hα0 hα (h := seconds dt) (hold.close q oa oa' ho ho' ix hix)
        (hxy.close q xa xa' hxa hxa' ix hix) (htt.close q ix hix)
      have rounding : |(roundedLF fl lf.strength lf.alpha (seconds dt) (oa.at' ix) (xa.at' ix) (tval t q ix)).1 -
            (roundedLF id lf.strength lf.alpha (seconds dt) (oa.at' ix) (xa.at' ix) (tval t q ix)).1| ≤
            ((1 + u) ^ 11 - 1) * (3 * (X * w q) + 3 * (|seconds dt| * (T * w q))) ∧
          |(roundedLF fl lf.strength lf.alpha (seconds dt) (oa.at' ix) (xa.at' ix) (tval t q ix)).2 -
            (roundedLF id lf.strength lf.alpha (seconds dt) (oa.at' ix) (xa.at' ix) (tval t q ix)).2| ≤
            ((1 + u) ^ 11 - 1) * (3 * (X * w q) + 3 * (|seconds dt| * (T * w q))) := by
        by_cases hu0 : u = 0
        · have := roundedLF_near hu hfl hν0 hν hα0 hα (h := seconds dt) (o := oa.at' ix) (x := xa.at' ix) (v := tval t q ix)
            (X := max |oa.at' ix| |xa.at' ix|) (T := |tval t q ix|) (le_max_left _ _) (le_max_right _ _) (le_refl _)
          rw [hu0] at this ⊢
          simpa using this
        · exact roundedLF_near hu hfl hν0 hν hα0 hα (hXo hu0 o hsome q oa ho ix hix) (hX q xa hxa ix hix)
            (hT hu0 r t hr ht q ix hix)
      exact ⟨join rounding.1 t1, join rounding.2 t2⟩
    have inside : ∀ {d : EState DataArray} {q : String} {a : DataArray}, Dict.get? d q = some (.da a) → q ∈ Dict.keys d :=
      fun hg => Dict.mem_keys_of_get? hg
    have kst : ∀ {d d0 : EState DataArray} {q : String}, Dict.get? d q = Dict.get? d0 q → (q ∈ Dict.keys d ↔ q ∈ Dict.keys d0) := by
      intro d d0 q hg
      rw [← Dict.get?_isSome_iff, ← Dict.get?_isSome_iff, hg]
    have hst : CloseStates I w ((1 + 2 * |seconds dt| * L) * E + lfAddedError u e X T (seconds dt)) st st' := by
      refine ⟨fun q => ?_, fun q a b hqa hqb ix hix => ?_⟩
      · by_cases hq : q ∈ Dict.keys t
        · obtain ⟨a, b, a', b', ga, _, ga', _, _⟩ := main q hq
          exact ⟨fun _ => inside ga', fun _ => inside ga⟩
        · rw [kst (q1 q hq).1, kst (q1' q (by rw [← htt.keys]; exact hq)).1]
          exact hxy.keys q
      · by_cases hq : q ∈ Dict.keys t
        · obtain ⟨a1, b1, a1', b1', ga, _, ga', _, hv⟩ := main q hq
          rw [hqa] at ga
          cases ga
          rw [hqb] at ga'
          cases ga'
          exact (hv ix hix).1
        · rw [(q1 q hq).1] at hqa
          rw [(q1' q (by rw [← htt.keys]; exact hq)).1] at hqb
          exact le_trans (hxy.close q a b hqa hqb ix hix) (mul_le_mul_of_nonneg_right hK (hw q))
    refine ⟨?_, hst⟩
    rw [hnew, hnew']
    refine hst.copy hw (le_refl _) ⟨fun q => ?_, fun q a b hqa hqb ix hix => ?_⟩
    · by_cases hq : q ∈ Dict.keys t
      · obtain ⟨a, b, a', b', _, gb, _, gb', _⟩ := main q hq
        exact ⟨fun _ => inside gb', fun _ => inside gb⟩
      · rw [kst (q1 q hq).2, kst (q1' q (by rw [← htt.keys]; exact hq)).2]
    · by_cases hq : q ∈ Dict.keys t
      · obtain ⟨a1, b1, a1', b1', _, gb, _, gb', hv⟩ := main q hq
        rw [hqa] at gb
        cases gb
        rw [hqb] at gb'
        cases gb'
        exact (hv ix hix).2
      · rw [(q1 q hq).2] at hqa
        cases hqa

/-! ## Runs -/

theorem lf_runs_within (hu : 0 ≤ u) (hfl : Rounds u fl) (hw : ∀ q, 0 ≤ w q) (hL : 0 ≤ L) (he : 0 ≤ e) (hX : 0 ≤ X) (hT : 0 ≤ T)
    (hp : Approximates I w X L e M (roundedArith fl conv) (roundedArith id conv') p p') (hd : GivesDicts p)
    {ν α : Rat} (hν0 : 0 ≤ ν) (hν : ν ≤ 1) (hα0 : 0 ≤ α) (hα : α ≤ 1)
    (inProps outProps : PropDict) (inst : String) (tid : Bool)
    {b b' : Dict DataArray → EState DataArray → EState DataArray} (hb : BetweenWithin I w b b') :
    ∀ (n : Nat) (E : Rat) (lf lf' : LFOver DataArray) (s : σ) (s' : σ') (x y : EState DataArray)
      (lff lff' : LFOver DataArray) (sf : σ) (sf' : σ') (xf yf : EState DataArray), 0 ≤ E →
      lf.strength = ν → lf.alpha = α → lf'.strength = ν → lf'.alpha = α →
      CloseOld I w E lf.old lf'.old → M s s' → CloseStates I w E x y →
      (∀ i < n, ∀ lfi si xi, runOver (tsCallO (roundedArith fl conv) inProps outProps inst tid
          (LFOver.call (roundedArith fl conv) p)) b dt i lf s x = (lfi, si, .ok xi) → StateSized I w X xi ∧
        (u ≠ 0 → (∀ o, lfi.old = some o → StateSized I w X o) ∧
          ∀ r t, (p si xi dt).2 = .ok r → convertTendenciesO (roundedArith fl conv) xi r.1 = .ok t → TendSized I w T t)) →
      runOver (tsCallO (roundedArith fl conv) inProps outProps inst tid (LFOver.call (roundedArith fl conv) p)) b dt n
        lf s x = (lff, sf, .ok xf) →
      runOver (tsCallO (roundedArith id conv') inProps outProps inst tid (LFOver.call (roundedArith id conv') p')) b' dt n
        lf' s' y = (lff', sf', .ok yf) →
      CloseStates I w (grownErrors (1 + 2 * |seconds dt| * L) (lfAddedError u e X T (seconds dt)) E n) xf yf := by
  intro n
  induction n with
  | zero =>
    intro E lf lf' s s' x y lff lff' sf sf' xf yf _ _ _ _ _ _ _ hxy _ h h'
    unfold runOver at h h'
    simp only [Prod.mk.injEq, Except.ok.injEq] at h h'
    rw [← h.2.2, ← h'.2.2]
    simpa [grownErrors] using hxy
  | succ n ih =>
    intro E lf lf' s s' x y lff lff' sf sf' xf yf hE hs1 ha1 hs1' ha1' hold hM hxy hsize h h'
    obtain ⟨hXx, hTx⟩ := hsize 0 (by omega) lf s x rfl
    rw [grownErrors_succ]
    unfold runOver at h h'
    rcases hc : tsCallO (roundedArith fl conv) inProps outProps inst tid
      (LFOver.call (roundedArith fl conv) p) lf s x dt with ⟨lf1, s1, st1, er | ⟨d1, new⟩⟩
    · rw [hc] at h; cases h
    rcases hc' : tsCallO (roundedArith id conv') inProps outProps inst tid
      (LFOver.call (roundedArith id conv') p') lf' s' y dt with ⟨lf1', s1', st1', er | ⟨d1', new'⟩⟩
    · rw [hc'] at h'; cases h'
    rw [hc] at h
    rw [hc'] at h'
    dsimp only at h h'
    obtain ⟨d, m, hk, hnew⟩ := tsCallO_keeps hc
    obtain ⟨d', m', hk', hnew'⟩ := tsCallO_keeps hc'
    obtain ⟨c1, c2⟩ := lf_step_within hu hfl hw hL he hX hT hp hd (by rw [hs1]; exact hν0) (by rw [hs1]; exact hν)
      (by rw [ha1]; exact hα0) (by rw [ha1]; exact hα) (by rw [hs1, hs1']) (by rw [ha1, ha1']) hE hM hxy hold hXx
      (fun h0 => (hTx h0).1) (fun h0 => (hTx h0).2) hk hk'
    obtain ⟨o1, o2, o3, _⟩ := lfOver_ok hk
    obtain ⟨o1', o2', o3', _⟩ := lfOver_ok hk'
    have hg0 := lfAddedError_nonneg hu he hX hT (seconds dt)
    have hE1 : 0 ≤ (1 + 2 * |seconds dt| * L) * E + lfAddedError u e X T (seconds dt) := by
      have := abs_nonneg (seconds dt)
      positivity
    refine ih _ lf1 lf1' s1 s1' (b d1 new) (b' d1' new') lff lff' sf sf' xf yf hE1 (o1.trans hs1) (o2.trans ha1)
      (o1'.trans hs1') (o2'.trans ha1') ?_ ?_ (hb _ d1 d1' new new' ?_) ?_ h h'
    · rw [o3, o3']
      exact c2
    · rw [lfOver_world hk, lfOver_world hk']
      exact hp.world s s' x y dt E hM hxy
    · rw [hnew, hnew']
      exact c2.copy hw (le_refl _) c1
    · intro i hi lfi si xi hrun
      refine hsize (i + 1) (by omega) lfi si xi ?_
      unfold runOver
      rw [hc]
      exact hrun

/-- C120: a run of `n` steps of a new Leapfrog (filter of strength `ν` and Williams' `α`, both between 0 and 1) in rounded
arithmetic, whose values are at most `X` and tendencies at most `T`, ends within `k^n E + (1 + k + ... + k^(n-1)) g` of the
run in exact arithmetic from a state at most `E` away, where `k = 1 + 2 dt L` and
`g = 2 dt e + ((1 + u)^11 - 1) (3 X + 3 dt T)`; `L` and `e` say how well the components are computed. -/
theorem lf_run_rounding (hu : 0 ≤ u) (hfl : Rounds u fl) (conv : DataArray → String → Except Err DataArray)
    (R : Registry) (hw : ∀ q, 0 ≤ w q) (hL : 0 ≤ L) (he : 0 ≤ e) (hX : 0 ≤ X) (hT : 0 ≤ T)
    (hp : Approximates I w X L e M (roundedArith fl conv) (dataArrayArith R) p p') (hd : GivesDicts p)
    {ν α : Rat} (hν0 : 0 ≤ ν) (hν : ν ≤ 1) (hα0 : 0 ≤ α) (hα : α ≤ 1)
    (inProps outProps : PropDict) (inst : String) (tid : Bool)
    {b b' : Dict DataArray → EState DataArray → EState DataArray} (hb : BetweenWithin I w b b') (n : Nat)
    {E : Rat} (hE : 0 ≤ E) (s : σ) (s' : σ') (hM : M s s') {x y : EState DataArray} (hxy : CloseStates I w E x y)
    {lff lff' : LFOver DataArray} {sf : σ} {sf' : σ'} {xf yf : EState DataArray}
    (hsize : ∀ i < n, ∀ lfi si xi, runOver (tsCallO (roundedArith fl conv) inProps outProps inst tid
          (LFOver.call (roundedArith fl conv) p)) b dt i { strength := ν, alpha := α } s x = (lfi, si, .ok xi) →
        StateSized I w X xi ∧ (u ≠ 0 → (∀ o, lfi.old = some o → StateSized I w X o) ∧
          ∀ r t, (p si xi dt).2 = .ok r → convertTendenciesO (roundedArith fl conv) xi r.1 = .ok t → TendSized I w T t))
    (h : runOver (tsCallO (roundedArith fl conv) inProps outProps inst tid (LFOver.call (roundedArith fl conv) p)) b dt n
        { strength := ν, alpha := α } s x = (lff, sf, .ok xf))
    (h' : runOver (tsCallO (dataArrayArith R) inProps outProps inst tid (LFOver.call (dataArrayArith R) p')) b' dt n
        { strength := ν, alpha := α } s' y = (lff', sf', .ok yf)) :
    CloseStates I w ((1 + 2 * |seconds dt| * L) ^ n * E + ((List.range n).map fun i => (1 + 2 * |seconds dt| * L) ^ i).sum *
      (2 * |seconds dt| * e + ((1 + u) ^ 11 - 1) * (3 * X + 3 * (|seconds dt| * T)))) xf yf := by
  rw [← roundedArith_id R] at hp h'
  exact lf_runs_within hu hfl hw hL he hX hT hp hd hν0 hν hα0 hα inProps outProps inst tid hb n E { strength := ν, alpha := α }
    { strength := ν, alpha := α } s s' x y lff lff' sf sf' xf yf hE rfl rfl rfl rfl trivial hM hxy hsize h h'

end

/-- C120: in exact arithmetic two runs of the same components, with tendencies that are Lipschitz continuous with
constant `L`, from states at most `E` apart are at most `(1 + 2 dt L)^n E` apart after `n` steps. -/
theorem lf_stable {σ : Type} {M : σ → σ → Prop} {p : ProgOver σ DataArray} {dt : Int} (R : Registry) (hw : ∀ q, 0 ≤ w q)
    (hL : 0 ≤ L) (hX : 0 ≤ X)
    (hp : Approximates I w X L 0 M (dataArrayArith R) (dataArrayArith R) p p) (hd : GivesDicts p)
    {ν α : Rat} (hν0 : 0 ≤ ν) (hν : ν ≤ 1) (hα0 : 0 ≤ α) (hα : α ≤ 1)
    (inProps outProps : PropDict) (inst : String) (tid : Bool)
    {b : Dict DataArray → EState DataArray → EState DataArray} (hb : BetweenWithin I w b b) (n : Nat)
    {E : Rat} (hE : 0 ≤ E) (s s' : σ) (hM : M s s') {x y : EState DataArray} (hxy : CloseStates I w E x y)
    {lff lff' : LFOver DataArray} {sf sf' : σ} {xf yf : EState DataArray}
    (hsize : ∀ i < n, ∀ lfi si xi, runOver (tsCallO (dataArrayArith R) inProps outProps inst tid
          (LFOver.call (dataArrayArith R) p)) b dt i { strength := ν, alpha := α } s x = (lfi, si, .ok xi) →
        StateSized I w X xi)
    (h : runOver (tsCallO (dataArrayArith R) inProps outProps inst tid (LFOver.call (dataArrayArith R) p)) b dt n
        { strength := ν, alpha := α } s x = (lff, sf, .ok xf))
    (h' : runOver (tsCallO (dataArrayArith R) inProps outProps inst tid (LFOver.call (dataArrayArith R) p)) b dt n
        { strength := ν, alpha := α } s' y = (lff', sf', .ok yf)) :
    CloseStates I w ((1 + 2 * |seconds dt| * L) ^ n * E) xf yf := by
  rw [← roundedArith_id R] at hsize h
  have := lf_run_rounding (u := 0) (T := 0) (le_refl 0) id_rounds _ R hw hL (le_refl 0) hX (le_refl 0)
    (by rw [roundedArith_id R]; exact hp) hd hν0 hν hα0 hα inProps outProps inst tid hb n hE s s' hM hxy
    (fun i hi lfi si xi hr => ⟨hsize i hi lfi si xi hr, fun h0 => absurd rfl h0⟩) h h'
  rwa [add_zero, one_pow, sub_self, zero_mul, mul_zero, add_zero, mul_zero, add_zero] at this

/-! ## Non-vacuity -/

/-- two steps with the default filter in `float64` arithmetic, all hypotheses of `lf_run_rounding` met; that the runs return
and differ is shown with `lf_run_converges` -/
example {lff lff' : LFOver DataArray} {xf yf : EState DataArray}
    (h : runOver (tsCallO (roundedArith binary64 Demo.asIs) [] [] "" false
      (LFOver.call (roundedArith binary64 Demo.asIs) (Demo.fades (roundedArith binary64 Demo.asIs)))) (fun _ s => s)
      1000000 2 { strength := 1 / 20, alpha := 1 / 2 } () (Demo.scalarT 7) = (lff, (), .ok xf))
    (h' : runOver (tsCallO (dataArrayArith Demo.reg) [] [] "" false
      (LFOver.call (dataArrayArith Demo.reg) (Demo.fades (dataArrayArith Demo.reg)))) (fun _ s => s)
      1000000 2 { strength := 1 / 20, alpha := 1 / 2 } () (Demo.scalarT 7) = (lff', (), .ok yf)) :
    CloseStates Demo.origin (fun _ => 1) (1 / 10 ^ 13) xf yf := by
  have h0 : CloseStates Demo.origin (fun _ => 1) 0 (Demo.scalarT 7) (Demo.scalarT 7) :=
    ⟨fun _ => Iff.rfl, fun q a b ha hb ix _ => by
      rw [ha] at hb
      cases hb
      rw [sub_self, abs_zero, zero_mul]⟩
  have := lf_run_rounding (I := Demo.origin) (w := fun _ => 1) (u := 2 ^ (-53 : Int)) (by positivity) binary64_rounds
    Demo.asIs Demo.reg (fun _ => by norm_num) (L := 1 / 10)
    (e := ((1 + 2 ^ (-53 : Int)) ^ 2 - 1) * (1 / 10 * 7)) (X := 7) (T := 1)
    (by norm_num) (by decide +kernel) (by norm_num) (by norm_num)
    (Demo.fades_approximates (by positivity) binary64_rounds Demo.reg (by norm_num) (fun _ => by norm_num))
    (Demo.fades_dicts _) (ν := 1 / 20) (α := 1 / 2) (by norm_num) (by norm_num) (by norm_num) (by norm_num)
    [] [] "" false (fun _ _ _ _ _ h => h) 2 (le_refl 0) () () trivial h0
    (by
      intro i hi lfi si xi hrun
      have hsm : Demo.small xi = true ∧ ∀ o, lfi.old = some o → Demo.small o = true := by
        rcases (by omega : i = 0 ∨ i = 1) with rfl | rfl
        · cases hrun
          exact ⟨by decide +kernel, fun o ho => by cases ho⟩
        · have ht : Exc.test (runOver (tsCallO (roundedArith binary64 Demo.asIs) [] [] "" false
            (LFOver.call (roundedArith binary64 Demo.asIs) (Demo.fades (roundedArith binary64 Demo.asIs)))) (fun _ s => s)
            1000000 1 { strength := 1 / 20, alpha := 1 / 2 } () (Demo.scalarT 7)).2.2 Demo.small = true := by decide +kernel
          have ho : (runOver (tsCallO (roundedArith binary64 Demo.asIs) [] [] "" false
            (LFOver.call (roundedArith binary64 Demo.asIs) (Demo.fades (roundedArith binary64 Demo.asIs)))) (fun _ s => s)
            1000000 1 { strength := 1 / 20, alpha := 1 / 2 } () (Demo.scalarT 7)).1.old.elim true Demo.small = true := by
            decide +kernel
          rw [hrun] at ht ho
          refine ⟨ht, fun o hlo => ?_⟩
          rw [hlo] at ho
          exact ho
      obtain ⟨h1, h2⟩ := Demo.small_sized hsm.1
      exact ⟨h1, fun _ => ⟨fun o ho => (Demo.small_sized (hsm.2 o ho)).1, h2⟩⟩) h h'
  refine ⟨this.keys, fun q a b ha hb ix hix => le_trans (this.close q a b ha hb ix hix) ?_⟩
  decide +kernel

/-- two exact steps from 7 K and from 6 K, all hypotheses of `lf_stable` met -/
example {lff lff' : LFOver DataArray} {xf yf : EState DataArray}
    (h : runOver (tsCallO (dataArrayArith Demo.reg) [] [] "" false
      (LFOver.call (dataArrayArith Demo.reg) (Demo.fades (dataArrayArith Demo.reg)))) (fun _ s => s)
      1000000 2 { strength := 1 / 20, alpha := 1 / 2 } () (Demo.scalarT 7) = (lff, (), .ok xf))
    (h' : runOver (tsCallO (dataArrayArith Demo.reg) [] [] "" false
      (LFOver.call (dataArrayArith Demo.reg) (Demo.fades (dataArrayArith Demo.reg)))) (fun _ s => s)
      1000000 2 { strength := 1 / 20, alpha := 1 / 2 } () (Demo.scalarT 6) = (lff', (), .ok yf)) :
    CloseStates Demo.origin (fun _ => 1) (36 / 25) xf yf := by
  have hp := Demo.fades_approximates (I := Demo.origin) (w := fun _ => 1) (u := 0) (X := 7) (le_refl 0) id_rounds Demo.reg
    (conv := fun a units => a.toUnits Demo.reg units) (by norm_num) (fun _ => by norm_num)
  rw [roundedArith_id, add_zero, one_pow, sub_self, zero_mul] at hp
  have h0 : CloseStates Demo.origin (fun _ => 1) 1 (Demo.scalarT 7) (Demo.scalarT 6) := by
    refine ⟨fun _ => Iff.rfl, fun q a b ha hb ix _ => ?_⟩
    unfold Demo.scalarT at ha hb
    rw [Dict.get?_cons] at ha hb
    split at ha
    · rename_i hq
      rw [if_pos hq] at hb
      cases ha
      cases hb
      show |(7 : Rat) - 6| ≤ _
      norm_num
    · cases ha
  have := lf_stable (I := Demo.origin) (w := fun _ => 1) Demo.reg (fun _ => by norm_num) (L := 1 / 10) (X := 7)
    (by norm_num) (by norm_num) hp (Demo.fades_dicts _) (ν := 1 / 20) (α := 1 / 2) (by norm_num) (by norm_num) (by norm_num)
    (by norm_num) [] [] "" false (b := fun _ s => s) (fun _ _ _ _ _ h => h) 2 (E := 1) (by norm_num) () () trivial h0
    (by
      intro i hi lfi si xi hrun
      refine (Demo.small_sized ?_).1
      rcases (by omega : i = 0 ∨ i = 1) with rfl | rfl
      · cases hrun
        decide +kernel
      · have ht : Exc.test (runOver (tsCallO (dataArrayArith Demo.reg) [] [] "" false
          (LFOver.call (dataArrayArith Demo.reg) (Demo.fades (dataArrayArith Demo.reg)))) (fun _ s => s)
          1000000 1 { strength := 1 / 20, alpha := 1 / 2 } () (Demo.scalarT 7)).2.2 Demo.small = true := by decide +kernel
        rw [hrun] at ht
        exact ht) h h'
  refine ⟨this.keys, fun q a b ha hb ix hix => le_trans (this.close q a b ha hb ix hix) ?_⟩
  decide +kernel

end Verif

import Verif.Spec.LeapfrogConvergence
import Verif.Props.StageConvergence
import Verif.Props.Leapfrog
/-! # Leapfrog runs follow the differential equation of the components: property C117 -/

namespace Verif

variable {u : Rat} {fl : Rat → Rat} {conv : DataArray → String → Except Err DataArray} {I : (String → Nat) → Prop}
  {w : String → Rat} {Q : String → Prop} {y : Trajectory} {J : Set ℝ} {D : Nat → Rat}

/-! ## Values after a step -/

/-- What `step_leapfrog` computes for one element: the filtered value and the new one. -/
def roundedLF (fl : Rat → Rat) (ν α h o x v : Rat) : Rat × Rat :=
  (fl (x + fl (fl α * fl (fl (1 / 2 * ν) * fl (fl (o - fl (fl 2 * x)) + fl (o + fl (fl h * fl (fl 2 * v))))))),
   if α ≠ 1 then fl (fl (o + fl (fl h * fl (fl 2 * v))) + fl (fl (α - 1) *
     fl (fl (1 / 2 * ν) * fl (fl (o - fl (fl 2 * x)) + fl (o + fl (fl h * fl (fl 2 * v)))))))
   else fl (o + fl (fl h * fl (fl 2 * v))))

theorem roundedSub_at {a b r : DataArray} (h : (roundedArith fl conv).sub a b = .ok r) (ix : String → Nat) :
    r.at' ix = fl (a.at' ix - b.at' ix) := by
  obtain ⟨r', hr, h⟩ := Exc.bind_ok_iff.1 h
  injection h with h
  subst h
  exact congrArg fl ((sub_ok hr).2.2 ix)

theorem roundedIadd_at {a b r : DataArray} (h : (roundedArith fl conv).iadd a b = .ok r) (ix : String → Nat) :
    r.at' ix = fl (a.at' ix + b.at' ix) := by
  obtain ⟨r', hr, h⟩ := Exc.bind_ok_iff.1 h
  injection h with h
  subst h
  exact congrArg fl ((iadd_ok hr).2.2 ix)

theorem leapfrogEntryO_ok {ν α : Rat} {dt : Int} {o x v n : DataArray} {r : DataArray × Except Err DataArray}
    (h : leapfrogEntryO (roundedArith fl conv) ν α o x v dt = .ok r) (hn : r.2 = .ok n) (ix : String → Nat) :
    r.1.at' ix = (roundedLF fl ν α (seconds dt) (o.at' ix) (x.at' ix) (v.at' ix)).1 ∧
    n.at' ix = (roundedLF fl ν α (seconds dt) (o.at' ix) (x.at' ix) (v.at' ix)).2 := by
  unfold leapfrogEntryO at h
  obtain ⟨n0, h0, h⟩ := Exc.bind_ok_iff.1 h
  obtain ⟨d, hd, h⟩ := Exc.bind_ok_iff.1 h
  obtain ⟨d', hd', h⟩ := Exc.bind_ok_iff.1 h
  obtain ⟨x', hx', h⟩ := Exc.bind_ok_iff.1 h
  injection h with h
  subst h
  have hn0 := (roundedAdd_ok h0).2.2 ix
  have hs := roundedSub_at hd ix
  have ha := (roundedAdd_ok hd').2.2 ix
  have hx := roundedIadd_at hx' ix
  rw [roundedSmul_at, roundedSmul_at] at hn0
  rw [roundedSmul_at] at hs
  rw [roundedSmul_at, roundedSmul_at, ha, hs, hn0] at hx
  unfold roundedLF
  refine ⟨hx, ?_⟩
  simp only at hn
  split at hn
  · rename_i hα
    rw [if_pos hα]
    have hm := roundedIadd_at hn ix
    rw [roundedSmul_at, roundedSmul_at, ha, hs, hn0] at hm
    exact hm
  · rename_i hα
    rw [if_neg hα]
    injection hn with hn
    rw [← hn]
    exact hn0

/-- Every quantity of the loop, whose keys are distinct. -/
theorem stepLeapfrogO_ok {ν α : Rat} {old : EState DataArray} {t : Dict DataArray} {dt : Int} :
    ∀ {ks : List String} {state new0 state' new : EState DataArray}, ks.Nodup →
      stepLeapfrogO (roundedArith fl conv) ν α old t dt ks state new0 = (state', .ok new) →
      (∀ k, k ∉ ks → Dict.get? state' k = Dict.get? state k ∧ Dict.get? new k = Dict.get? new0 k) ∧
      (∀ k ∈ ks, ∃ o x x' n, Dict.get? old k = some (.da o) ∧ Dict.get? state k = some (.da x) ∧
        Dict.get? state' k = some (.da x') ∧ Dict.get? new k = some (.da n) ∧ ∀ ix,
          x'.at' ix = (roundedLF fl ν α (seconds dt) (o.at' ix) (x.at' ix) (tval t k ix)).1 ∧
          n.at' ix = (roundedLF fl ν α (seconds dt) (o.at' ix) (x.at' ix) (tval t k ix)).2) := by
  intro ks
  induction ks with
  | nil =>
    intro state new0 state' new _ h
    unfold stepLeapfrogO at h
    simp only [Prod.mk.injEq, Except.ok.injEq] at h
    obtain ⟨rfl, rfl⟩ := h
    exact ⟨fun k _ => ⟨rfl, rfl⟩, fun k hk => by simp at hk⟩
  | cons k ks ih =>
    intro state new0 state' new hnd h
    rw [List.nodup_cons] at hnd
    unfold stepLeapfrogO at h
    split at h
    · cases h
    · rename_i r hr
      obtain ⟨o, ho, hr⟩ := Exc.bind_ok_iff.1 hr
      obtain ⟨x, hx, hr⟩ := Exc.bind_ok_iff.1 hr
      obtain ⟨v, hv, hr⟩ := Exc.bind_ok_iff.1 hr
      split at h
      · cases h
      · rename_i n hn
        obtain ⟨i3, i4⟩ := ih hnd.2 h
        have hent := leapfrogEntryO_ok hr hn
        have ho := EState.da_ok.1 ho
        have hx := EState.da_ok.1 hx
        have hv := Dict.get_eq_ok.1 hv
        refine ⟨?_, ?_⟩
        · intro q hq
          rw [List.mem_cons, not_or] at hq
          obtain ⟨j1, j2⟩ := i3 q hq.2
          rw [j1, j2, Dict.get?_set_ne _ _ (Ne.symm hq.1), Dict.get?_set_ne _ _ (Ne.symm hq.1)]
          exact ⟨rfl, rfl⟩
        · intro q hq
          by_cases hqk : q = k
          · subst hqk
            obtain ⟨j1, j2⟩ := i3 q hnd.1
            rw [Dict.get?_set_self] at j1 j2
            refine ⟨o, x, r.1, n, ho, hx, j1, j2, fun ix => ?_⟩
            rw [tval_of_get hv]
            exact hent ix
          · rcases List.mem_cons.1 hq with rfl | hq
            · exact absurd rfl hqk
            · obtain ⟨o', x', y, m, e1, e2, e4, e5, e6⟩ := i4 q hq
              rw [Dict.get?_set_ne _ _ (Ne.symm hqk)] at e2
              exact ⟨o', x', y, m, e1, e2, e4, e5, e6⟩

/-- The successful calls of a Leapfrog. -/
theorem lfOver_ok {σ : Type} {A : Arith DataArray} {prog : ProgOver σ DataArray} {lf lf' : LFOver DataArray} {s s' : σ}
    {state st new : EState DataArray} {dt : Int} {diag : Dict DataArray}
    (h : LFOver.call A prog lf s state dt = (lf', s', st, .ok (diag, new))) :
    lf'.strength = lf.strength ∧ lf'.alpha = lf.alpha ∧ lf'.old = some st ∧
    ∃ r t n, (prog s state dt).2 = .ok r ∧ convertTendenciesO A state r.1 = .ok t ∧ new = copyUntouchedO st n ∧
      ((lf.old = none ∧ st = state ∧ stepEulerO A state t dt = .ok n) ∨
       ∃ old, lf.old = some old ∧ stepLeapfrogO A lf.strength lf.alpha old t dt t.keys state [] = (st, .ok n)) := by
  unfold LFOver.call at h
  split at h
  · dsimp only at h
    cases hr : (prog s state dt).2 with
    | error e => rw [hr] at h; cases h
    | ok r =>
      rw [hr] at h
      dsimp only at h
      cases ht : convertTendenciesO A state r.1 with
      | error e => rw [ht] at h; cases h
      | ok t =>
        rw [ht] at h
        dsimp only at h
        cases ho : lf.old with
        | none =>
          rw [ho] at h
          dsimp only at h
          cases hn : stepEulerO A state t dt with
          | error e => rw [hn] at h; cases h
          | ok n =>
            rw [hn] at h
            simp only [Prod.mk.injEq, Except.ok.injEq] at h
            obtain ⟨rfl, _, rfl, _, rfl⟩ := h
            exact ⟨rfl, rfl, rfl, r, t, n, rfl, ht, rfl, Or.inl ⟨rfl, rfl, hn⟩⟩
        | some old =>
          rw [ho] at h
          dsimp only at h
          rcases hs : stepLeapfrogO A lf.strength lf.alpha old t dt t.keys state [] with ⟨st1, e | n⟩
          · rw [hs] at h; cases h
          · rw [hs] at h
            simp only [Prod.mk.injEq, Except.ok.injEq] at h
            obtain ⟨rfl, _, rfl, _, rfl⟩ := h
            exact ⟨rfl, rfl, rfl, r, t, n, rfl, ht, rfl, Or.inr ⟨old, rfl, hs⟩⟩
  · cases h

/-! ## Rounding errors of a step -/

theorem roundedLF_near (hu : 0 ≤ u) (hfl : Rounds u fl) {ν α : Rat} (hν0 : 0 ≤ ν) (hν : ν ≤ 1) (hα0 : 0 ≤ α) (hα : α ≤ 1)
    {h o x v X T : Rat} (ho : |o| ≤ X) (hx : |x| ≤ X) (hv : |v| ≤ T) :
    |(roundedLF fl ν α h o x v).1 - (roundedLF id ν α h o x v).1| ≤ ((1 + u) ^ 11 - 1) * (3 * X + 3 * (|h| * T)) ∧
    |(roundedLF fl ν α h o x v).2 - (roundedLF id ν α h o x v).2| ≤ ((1 + u) ^ 11 - 1) * (3 * X + 3 * (|h| * T)) := by
  have hX : 0 ≤ X := le_trans (abs_nonneg _) ho
  have hT : 0 ≤ T := le_trans (abs_nonneg _) hv
  have nv : Near u 0 v v T := (Near.exact v).mono hu (le_refl _) hv
  have nx : Near u 0 x x X := (Near.exact x).mono hu (le_refl _) hx
  have no : Near u 0 o o X := (Near.exact o).mono hu (le_refl _) ho
  have n1 := ((nv.smul hu hfl 2).smul hu hfl h)
  have n2 := ((no.mono hu (show 0 ≤ 0 + 2 + 2 by omega) (le_refl _)).add n1).round hu hfl
  have d1 := ((no.mono hu (show 0 ≤ 0 + 2 by omega) (le_refl _)).sub (nx.smul hu hfl 2)).round hu hfl
  have d2 := ((d1.mono hu (show 0 + 2 + 1 ≤ 0 + 2 + 2 + 1 by omega) (le_refl _)).add n2).round hu hfl
  have f := d2.smul hu hfl (1 / 2 * ν)
  have fa := f.smul hu hfl α
  have fb := f.smul hu hfl (α - 1)
  have x1 := ((nx.mono hu (show 0 ≤ 0 + 2 + 2 + 1 + 1 + 2 + 2 by omega) (le_refl _)).add fa).round hu hfl
  have y1 := ((n2.mono hu (show 0 + 2 + 2 + 1 ≤ 0 + 2 + 2 + 1 + 1 + 2 + 2 by omega) (le_refl _)).add fb).round hu hfl
  have a2 : |(2 : Rat)| = 2 := by norm_num
  have aν : |1 / 2 * ν| = 1 / 2 * ν := abs_of_nonneg (by linarith)
  have aα : |α| = α := abs_of_nonneg hα0
  have aα' : |α - 1| = 1 - α := by rw [abs_sub_comm, abs_of_nonneg (by linarith)]
  have hhT : 0 ≤ |h| * T := mul_nonneg (abs_nonneg h) hT
  have hsz : 0 ≤ ν * (2 * X + |h| * T) := mul_nonneg hν0 (by linarith)
  have hsz' : ν * (2 * X + |h| * T) ≤ 2 * X + |h| * T := by nlinarith
  have s1 : X + |α| * (|1 / 2 * ν| * (X + |2| * X + (X + |h| * (|2| * T)))) ≤ 3 * X + 3 * (|h| * T) := by
    rw [a2, aν, aα, show 1 / 2 * ν * (X + 2 * X + (X + |h| * (2 * T))) = ν * (2 * X + |h| * T) by ring]
    nlinarith
  have s2 : X + |h| * (|2| * T) + |α - 1| * (|1 / 2 * ν| * (X + |2| * X + (X + |h| * (|2| * T)))) ≤
      3 * X + 3 * (|h| * T) := by
    rw [a2, aν, aα', show 1 / 2 * ν * (X + 2 * X + (X + |h| * (2 * T))) = ν * (2 * X + |h| * T) by ring]
    nlinarith
  have s3 : X + |h| * (|2| * T) ≤ 3 * X + 3 * (|h| * T) := by
    rw [a2]
    nlinarith
  refine ⟨(x1.mono hu (le_refl _) s1).err, ?_⟩
  unfold roundedLF
  dsimp only
  by_cases h1 : α ≠ 1
  · rw [if_pos h1, if_pos h1]
    exact (y1.mono hu (le_refl _) s2).err
  · rw [if_neg h1, if_neg h1]
    exact (n2.mono hu (show 0 + 2 + 2 + 1 ≤ 11 by omega) s3).err

/-! ## Truncation errors of a step -/

/-- Means of errors are no larger than the errors. -/
theorem mean_within {c ν a b g r s E G P S : ℝ} (hc : 0 ≤ c) (hcν : c ≤ ν) (hν : ν ≤ 1) (ha : |a| ≤ E) (hb : |b| ≤ E)
    (hg : |g| ≤ G) (hr : |r| ≤ P) (hs : |s| ≤ S) :
    |(1 - c) * a + c * b + c * g + c * r| ≤ E + 2 * G + (ν * P + S) ∧
    |(1 - c) * a + c * b + (2 - c) * g - c * r + s| ≤ E + 2 * G + (ν * P + S) := by
  have hG : 0 ≤ G := le_trans (abs_nonneg _) hg
  have hP : 0 ≤ P := le_trans (abs_nonneg _) hr
  have hS : 0 ≤ S := le_trans (abs_nonneg _) hs
  have k : ∀ {m z Z : ℝ}, 0 ≤ m → |z| ≤ Z → |m * z| ≤ m * Z := fun hm hz => by
    rw [abs_mul, abs_of_nonneg hm]
    exact mul_le_mul_of_nonneg_left hz hm
  have a1 := abs_le.1 (k (show 0 ≤ 1 - c by linarith) ha)
  have b1 := abs_le.1 (k hc hb)
  have g1 := abs_le.1 (k hc hg)
  have g2 := abs_le.1 (k (show 0 ≤ 2 - c by linarith) hg)
  have r1 := abs_le.1 (k hc hr)
  have s1 := abs_le.1 hs
  have m1 := mul_le_mul_of_nonneg_right hcν hP
  have m2 : c * G ≤ 1 * G := mul_le_mul_of_nonneg_right (by linarith) hG
  have m3 : (2 - c) * G ≤ 2 * G := mul_le_mul_of_nonneg_right (by linarith) hG
  have m4 : (1 - c) * E + c * E = E := by ring
  constructor <;> rw [abs_le] <;> constructor <;> linarith [a1.1, a1.2, b1.1, b1.2, g1.1, g1.2, g2.1, g2.2, r1.1, r1.2]

/-- Errors of the filtered and of the new value, in exact arithmetic. -/
theorem lf_values_near {ν α : Rat} (hν0 : 0 ≤ ν) (hν : ν ≤ 1) (hα0 : 0 ≤ α) (hα : α ≤ 1) {h o x v : Rat} {d : Nat → ℝ → ℝ}
    {t E F B2 B3 : ℝ} (hJ : Convex ℝ J) (ht : t ∈ J) (hth : t + (h : ℝ) ∈ J) (hth' : t + -(h : ℝ) ∈ J)
    (hd : ∀ j ≤ 2, ∀ x ∈ J, HasDerivAt (d j) (d (j + 1) x) x) (h2 : ∀ x ∈ J, |d 2 x| ≤ B2) (h3 : ∀ x ∈ J, |d 3 x| ≤ B3)
    (ho : |(o : ℝ) - d 0 (t + -(h : ℝ))| ≤ E) (hx : |(x : ℝ) - d 0 t| ≤ E) (hv : |(v : ℝ) - d 1 t| ≤ F) :
    |((roundedLF id ν α h o x v).1 : ℝ) - d 0 t| ≤
      E + 2 * |(h : ℝ)| * F + (ν * (B2 / 2 * |(h : ℝ)| ^ 2) + B3 / 3 * |(h : ℝ)| ^ 3) ∧
    |((roundedLF id ν α h o x v).2 : ℝ) - d 0 (t + (h : ℝ))| ≤
      E + 2 * |(h : ℝ)| * F + (ν * (B2 / 2 * |(h : ℝ)| ^ 2) + B3 / 3 * |(h : ℝ)| ^ 3) := by
  obtain ⟨_, b, _⟩ := taylor_stages hJ ht hth hd h2 h3
  obtain ⟨a', b', _⟩ := taylor_stages hJ ht hth' hd h2 h3
  rw [abs_neg] at a' b'
  have hν0' : (0 : ℝ) ≤ ν := by exact_mod_cast hν0
  have hν' : (ν : ℝ) ≤ 1 := by exact_mod_cast hν
  have hα0' : (0 : ℝ) ≤ α := by exact_mod_cast hα0
  have hα' : (α : ℝ) ≤ 1 := by exact_mod_cast hα
  have hH := abs_nonneg (h : ℝ)
  -- the values of the exact scheme
  have e1 : (roundedLF id ν α h o x v).1 = x + α * ν * (o - x + h * v) := by
    unfold roundedLF
    simp only [id]
    ring
  have e2 : (roundedLF id ν α h o x v).2 = o + 2 * h * v - (1 - α) * ν * (o - x + h * v) := by
    unfold roundedLF
    simp only [id]
    by_cases h1 : α = 1
    · rw [if_neg (by simpa using h1), h1]
      ring
    · rw [if_pos h1]
      ring
  have hR : |d 0 (t + -(h : ℝ)) - (d 0 t + -(h : ℝ) * d 1 t)| ≤ B2 / 2 * |(h : ℝ)| ^ 2 := le_trans a' (le_of_eq (by ring))
  have hS : |(d 0 (t + -(h : ℝ)) - (d 0 t + -(h : ℝ) * d 1 t + (-(h : ℝ)) ^ 2 / 2 * d 2 t)) -
      (d 0 (t + (h : ℝ)) - (d 0 t + (h : ℝ) * d 1 t + (h : ℝ) ^ 2 / 2 * d 2 t))| ≤ B3 / 3 * |(h : ℝ)| ^ 3 :=
    le_trans (abs_sub _ _) (le_trans (add_le_add b' b) (le_of_eq (by ring)))
  have hg : |(h : ℝ) * ((v : ℝ) - d 1 t)| ≤ |(h : ℝ)| * F := by
    rw [abs_mul]
    exact mul_le_mul_of_nonneg_left hv hH
  have m1 := (mean_within (c := α * ν) (ν := ν) (mul_nonneg hα0' hν0') (by nlinarith) hν' hx ho hg hR hS).1
  have m2 := (mean_within (c := (1 - α) * ν) (ν := ν) (mul_nonneg (by linarith) hν0') (by nlinarith) hν' ho hx hg hR hS).2
  rw [e1, e2]
  constructor
  · refine le_trans (le_of_eq (congrArg abs ?_)) (le_trans m1 (le_of_eq (by ring)))
    push_cast
    ring
  · refine le_trans (le_of_eq (congrArg abs ?_)) (le_trans m2 (le_of_eq (by ring)))
    push_cast
    ring

/-! ## Steps -/

section
variable {σ : Type} {p : ProgOver σ DataArray} {dt : Int} {L e X T : Rat}

theorem lfAddedError_nonneg (hu : 0 ≤ u) (he : 0 ≤ e) (hX : 0 ≤ X) (hT : 0 ≤ T) (h : Rat) : 0 ≤ lfAddedError u e X T h := by
  unfold lfAddedError
  have := one_le_pow hu 11
  have hh := abs_nonneg h
  have h1 : 0 ≤ 2 * |h| * e := by positivity
  have h2 : 0 ≤ 3 * X + 3 * (|h| * T) := by positivity
  have h3 := mul_nonneg (sub_nonneg.2 this) h2
  linarith

theorem lfStepError_nonneg {ν : Rat} (hν : 0 ≤ ν) (hD : ∀ j, 0 ≤ D j) (h : Rat) (i : Nat) : 0 ≤ lfStepError ν D h i := by
  have h2 := hD 2
  have h3 := hD 3
  unfold lfStepError
  split <;> positivity

/-- One call of a Leapfrog, from near the solution to near the solution. -/
theorem lf_step_near (hu : 0 ≤ u) (hfl : Rounds u fl) (hw : ∀ q, 0 ≤ w q) (hJ : Convex ℝ J)
    (hy : SmoothDuring I w Q y J 2 D) (hD : ∀ j, 0 ≤ D j) (hL : 0 ≤ L) (he : 0 ≤ e) (hX0 : 0 ≤ X) (hT0 : 0 ≤ T)
    {lf lf' : LFOver DataArray} (hν0 : 0 ≤ lf.strength) (hν : lf.strength ≤ 1) (hα0 : 0 ≤ lf.alpha) (hα : lf.alpha ≤ 1)
    {s s' : σ} {x st new : EState DataArray} {diag : Dict DataArray} {E : Rat} (hE : 0 ≤ E) {τ : ℝ} (hτ : τ ∈ J)
    (hτh : τ + (seconds dt : ℝ) ∈ J) (hx : NearSolution I w Q y E τ x)
    (hold : ∀ o, lf.old = some o → τ + -(seconds dt : ℝ) ∈ J ∧ NearSolution I w Q y E (τ + -(seconds dt : ℝ)) o)
    (hX : u ≠ 0 → StateSized I w X x) (hXo : u ≠ 0 → ∀ o, lf.old = some o → StateSized I w X o)
    (hd : ∀ r, (p s x dt).2 = .ok r → (Dict.keys r.1).Nodup)
    (hrhs : ∀ r t, (p s x dt).2 = .ok r → convertTendenciesO (roundedArith fl conv) x r.1 = .ok t →
      (u ≠ 0 → TendSized I w T t) ∧ NearDerivative I w Q y (L * E + e) τ t)
    (h : LFOver.call (roundedArith fl conv) p lf s x dt = (lf', s', st, .ok (diag, new))) :
    NearSolution I w Q y ((1 + 2 * |seconds dt| * L) * E + lfAddedError u e X T (seconds dt) +
      lfStepError lf.strength D (seconds dt) (if lf.old = none then 0 else 1)) (τ + (seconds dt : ℝ)) new ∧
    NearSolution I w Q y ((1 + 2 * |seconds dt| * L) * E + lfAddedError u e X T (seconds dt) +
      lfStepError lf.strength D (seconds dt) (if lf.old = none then 0 else 1)) τ st ∧
    lf'.strength = lf.strength ∧ lf'.alpha = lf.alpha ∧ lf'.old = some st := by
  obtain ⟨g1, g2, g3, r, t, n, hr, ht, hnew, hcase⟩ := lfOver_ok h
  obtain ⟨hTt, htn⟩ := hrhs r t hr ht
  have hg0 := lfAddedError_nonneg hu he hX0 hT0 (seconds dt)
  have hf0 := lfStepError_nonneg hν0 hD (seconds dt) (if lf.old = none then 0 else 1)
  have hK : E ≤ (1 + 2 * |seconds dt| * L) * E := by
    have : 0 ≤ 2 * |seconds dt| * L * E := by positivity
    linarith
  rcases hcase with ⟨hnone, hst, hn⟩ | ⟨o, hsome, hn⟩
  · -- the first step
    subst hst
    refine ⟨fun q hq => ?_, hx.mono hw (by linarith), g1, g2, g3⟩
    unfold stepEulerO at hn
    obtain ⟨k1, k2⟩ := stepKeysO_ok hn
    have hqt := (htn q hq).1
    obtain ⟨a, hf, hga⟩ := k2 q hqt
    obtain ⟨xa, hxa, hf⟩ := Exc.bind_ok_iff.1 hf
    obtain ⟨v, hv, hf⟩ := Exc.bind_ok_iff.1 hf
    have hval := (roundedAdd_ok hf).2.2
    have hxa := EState.da_ok.1 hxa
    refine ⟨a, by rw [hnew, (copyUntouchedO_spec _ _).2.1 q (by rw [k1]; exact hqt), hga], fun ix hix => ?_⟩
    obtain ⟨xb, hxb, hxn⟩ := hx q hq
    rw [hxa] at hxb
    cases hxb
    have hvn := (htn q hq).2 ix hix
    rw [tval_of_get (Dict.get_eq_ok.1 hv)] at hvn
    rw [hval ix, roundedSmul_at, if_pos hnone]
    have tr := (taylor_stages hJ hτ hτh (d := fun j => y j q ix) (B2 := D 2 * w q) (B3 := D 3 * w q)
      (fun j hj z hz => hy.deriv j hj q hq ix hix z hz) (fun z hz => hy.bound 2 (by omega) q hq ix hix z hz)
      (fun z hz => hy.bound 3 (by omega) q hq ix hix z hz)).1
    have hwq := hw q
    have hround : |fl (xa.at' ix + fl (fl (seconds dt) * v.at' ix)) - (xa.at' ix + seconds dt * v.at' ix)| ≤
        ((1 + u) ^ 11 - 1) * (3 * (X * w q) + 3 * (|seconds dt| * (T * w q))) := by
      have nn := ((((Near.exact (u := u) (xa.at' ix)).mono hu (show 0 ≤ 0 + 2 by omega) (le_refl _)).add
        ((Near.exact (v.at' ix)).smul hu hfl (seconds dt))).round hu hfl)
      by_cases hu0 : u = 0
      · have := nn.err
        rw [hu0] at this ⊢
        simpa using this
      · have b1 := hX hu0 q xa hxa ix hix
        have b2 := hTt hu0 q ix hix
        rw [tval_of_get (Dict.get_eq_ok.1 hv)] at b2
        have b3 := mul_le_mul_of_nonneg_left b2 (abs_nonneg (seconds dt))
        have b4 : 0 ≤ X * w q := mul_nonneg hX0 hwq
        have b5 : 0 ≤ |seconds dt| * (T * w q) := mul_nonneg (abs_nonneg _) (mul_nonneg hT0 hwq)
        exact (nn.mono hu (show 0 + 2 + 1 ≤ 11 by omega) (by linarith)).err
    generalize fl (xa.at' ix + fl (fl (seconds dt) * v.at' ix)) = z at *
    have hround' : |(z : ℝ) - ((xa.at' ix + seconds dt * v.at' ix : Rat) : ℝ)| ≤
        ((((1 + u) ^ 11 - 1) * (3 * (X * w q) + 3 * (|seconds dt| * (T * w q))) : Rat) : ℝ) := by
      rw [← Rat.cast_sub, ← Rat.cast_abs]
      exact_mod_cast hround
    have hxi := hxn ix hix
    have hH := abs_nonneg (seconds dt : ℝ)
    have hhv := mul_le_mul_of_nonneg_left hvn hH
    have hlast : |(seconds dt : ℝ)| * (((L * E + e : Rat) : ℝ) * w q) ≤ 2 * |(seconds dt : ℝ)| * (((L * E + e : Rat) : ℝ) * w q) := by
      have : (0 : ℝ) ≤ |(seconds dt : ℝ)| * (((L * E + e : Rat) : ℝ) * w q) :=
        le_trans (mul_nonneg hH (abs_nonneg _)) hhv
      linarith
    have e1 : (z : ℝ) - y 0 q ix (τ + (seconds dt : ℝ)) = ((z : ℝ) - ((xa.at' ix + seconds dt * v.at' ix : Rat) : ℝ)) +
        (((xa.at' ix : ℝ) - y 0 q ix τ) + (seconds dt : ℝ) * ((v.at' ix : ℝ) - y 1 q ix τ)) -
        (y 0 q ix (τ + (seconds dt : ℝ)) - (y 0 q ix τ + (seconds dt : ℝ) * y 1 q ix τ)) := by
      push_cast
      ring
    rw [e1]
    refine le_trans (abs_sub _ _) (le_trans (add_le_add (le_trans (abs_add_le _ _) (add_le_add hround'
      (le_trans (abs_add_le _ _) (add_le_add hxi (le_trans (le_of_eq (abs_mul _ _)) (le_trans hhv hlast)))))) tr) (le_of_eq ?_))
    unfold lfAddedError lfStepError
    rw [if_pos rfl]
    push_cast
    ring
  · -- later steps
    obtain ⟨hτ', hon⟩ := hold o hsome
    have hnd : (Dict.keys t).Nodup := by
      rw [convertTendenciesO_keys ht]
      exact hd _ hr
    obtain ⟨_, hval⟩ := stepLeapfrogO_ok hnd hn
    have main : ∀ q, Q q → ∃ x' a, Dict.get? st q = some (.da x') ∧ Dict.get? n q = some (.da a) ∧ ∀ ix, I ix →
        |(x'.at' ix : ℝ) - y 0 q ix τ| ≤ (((1 + 2 * |seconds dt| * L) * E + lfAddedError u e X T (seconds dt) +
          lfStepError lf.strength D (seconds dt) (if lf.old = none then 0 else 1) : Rat) : ℝ) * w q ∧
        |(a.at' ix : ℝ) - y 0 q ix (τ + (seconds dt : ℝ))| ≤ (((1 + 2 * |seconds dt| * L) * E +
          lfAddedError u e X T (seconds dt) +
          lfStepError lf.strength D (seconds dt) (if lf.old = none then 0 else 1) : Rat) : ℝ) * w q := by
      intro q hq
      obtain ⟨oa, xa, x', a, ho, hxa, hx', ha, hv⟩ := hval q (htn q hq).1
      refine ⟨x', a, hx', ha, fun ix hix => ?_⟩
      obtain ⟨xb, hxb, hxn⟩ := hx q hq
      rw [hxa] at hxb
      cases hxb
      obtain ⟨ob, hob, hoo⟩ := hon q hq
      rw [ho] at hob
      cases hob
      have hvn := (htn q hq).2 ix hix
      obtain ⟨v1, v2⟩ := hv ix
      rw [v1, v2]
      have hwq := hw q
      obtain ⟨t1, t2⟩ := lf_values_near hν0 hν hα0 hα hJ hτ hτh hτ' (d := fun j => y j q ix) (B2 := D 2 * w q)
        (B3 := D 3 * w q) (fun j hj z hz => hy.deriv j hj q hq ix hix z hz)
        (fun z hz => hy.bound 2 (by omega) q hq ix hix z hz) (fun z hz => hy.bound 3 (by omega) q hq ix hix z hz)
        (hoo ix hix) (hxn ix hix) hvn
      have rounding : |(roundedLF fl lf.strength lf.alpha (seconds dt) (oa.at' ix) (xa.at' ix) (tval t q ix)).1 -
            (roundedLF id lf.strength lf.alpha (seconds dt) (oa.at' ix) (xa.at' ix) (tval t q ix)).1| ≤
            ((1 + u) ^ 11 - 1) * (3 * (X * w q) + 3 * (|seconds dt| * (T * w q))) ∧
          |(roundedLF fl lf.strength lf.alpha (seconds dt) (oa.at' ix) (xa.at' ix) (tval t q ix)).2 -
            (roundedLF id lf.strength lf.alpha (seconds dt) (oa.at' ix) (xa.at' ix) (tval t q ix)).2| ≤
            ((1 + u) ^ 11 - 1) * (3 * (X * w q) + 3 * (|seconds dt| * (T * w q))) := by
        by_cases hu0 : u = 0
        · have := roundedLF_near hu hfl hν0 hν hα0 hα (h := seconds dt) (o := oa.at' ix) (x := xa.at' ix) (v := tval t q ix)
            (X := max |oa.at' ix| |xa.at' ix|) (T := |tval t q ix|) (le_max_left _ _) (le_max_right _ _) (le_refl _)
          rw [hu0] at this ⊢
          simpa using this
        · exact roundedLF_near hu hfl hν0 hν hα0 hα (hXo hu0 o hsome q oa ho ix hix) (hX hu0 q xa hxa ix hix) (hTt hu0 q ix hix)
      have lift : ∀ {z z' : Rat} {Y : ℝ}, |z - z'| ≤ ((1 + u) ^ 11 - 1) * (3 * (X * w q) + 3 * (|seconds dt| * (T * w q))) →
          |(z' : ℝ) - Y| ≤ (E : ℝ) * w q + 2 * |(seconds dt : ℝ)| * (((L * E + e : Rat) : ℝ) * w q) +
            (lf.strength * (D 2 * w q / 2 * |(seconds dt : ℝ)| ^ 2) + D 3 * w q / 3 * |(seconds dt : ℝ)| ^ 3) →
          |(z : ℝ) - Y| ≤ (((1 + 2 * |seconds dt| * L) * E + lfAddedError u e X T (seconds dt) +
            lfStepError lf.strength D (seconds dt) (if lf.old = none then 0 else 1) : Rat) : ℝ) * w q := by
        intro z z' Y h1 h2
        have h1' : |(z : ℝ) - (z' : ℝ)| ≤
            ((((1 + u) ^ 11 - 1) * (3 * (X * w q) + 3 * (|seconds dt| * (T * w q))) : Rat) : ℝ) := by
          rw [← Rat.cast_sub, ← Rat.cast_abs]
          exact_mod_cast h1
        refine le_trans (abs_sub_le _ (z' : ℝ) _) (le_trans (add_le_add h1' h2) (le_of_eq ?_))
        unfold lfAddedError lfStepError
        rw [if_neg (show ¬ lf.old = none by rw [hsome]; simp), if_neg (by norm_num)]
        push_cast
        ring
      exact ⟨lift rounding.1 t1, lift rounding.2 t2⟩
    refine ⟨fun q hq => ?_, fun q hq => ?_, g1, g2, g3⟩
    · obtain ⟨_, a, _, ha, hv⟩ := main q hq
      exact ⟨a, by rw [hnew, (copyUntouchedO_spec _ _).2.1 q (Dict.mem_keys_of_get? ha), ha], fun ix hix => (hv ix hix).2⟩
    · obtain ⟨x', _, hx', _, hv⟩ := main q hq
      exact ⟨x', hx', fun ix hix => (hv ix hix).1⟩

/-! ## Runs -/

theorem lf_runs_near (hu : 0 ≤ u) (hfl : Rounds u fl) (hw : ∀ q, 0 ≤ w q) (hJ : Convex ℝ J)
    (hy : SmoothDuring I w Q y J 2 D) (hD : ∀ j, 0 ≤ D j) (hL : 0 ≤ L) (he : 0 ≤ e) (hX : 0 ≤ X) (hT : 0 ≤ T)
    {ν α : Rat} (hν0 : 0 ≤ ν) (hν : ν ≤ 1) (hα0 : 0 ≤ α) (hα : α ≤ 1)
    (inProps outProps : PropDict) (inst : String) (tid : Bool)
    {b : Dict DataArray → EState DataArray → EState DataArray}
    (hb : ∀ d x q, Q q → Dict.get? (b d x) q = Dict.get? x q)
    {M : ℝ → Rat → LFOver DataArray → σ → EState DataArray → Prop}
    (hM : ∀ t E E' lf s x, E ≤ E' → M t E lf s x → M t E' lf s x) :
    ∀ (n : Nat) (E : Rat) (lf : LFOver DataArray) (s : σ) (x : EState DataArray) (τ : ℝ) (lff : LFOver DataArray) (sf : σ)
      (xf : EState DataArray), 0 ≤ E → lf.strength = ν → lf.alpha = α →
      (∀ i ≤ n, τ + i * (seconds dt : ℝ) ∈ J) → NearSolution I w Q y E τ x → M τ E lf s x →
      (∀ o, lf.old = some o → τ + -(seconds dt : ℝ) ∈ J ∧ NearSolution I w Q y E (τ + -(seconds dt : ℝ)) o) →
      (∀ i < n, ∀ lfi si xi, runOver (tsCallO (roundedArith fl conv) inProps outProps inst tid
          (LFOver.call (roundedArith fl conv) p)) b dt i lf s x = (lfi, si, .ok xi) →
        (u ≠ 0 → StateSized I w X xi ∧ ∀ o, lfi.old = some o → StateSized I w X o) ∧
        ∀ E, 0 ≤ E → NearSolution I w Q y E (τ + i * (seconds dt : ℝ)) xi → M (τ + i * (seconds dt : ℝ)) E lfi si xi →
          (∀ r, (p si xi dt).2 = .ok r → (Dict.keys r.1).Nodup) ∧
          (∀ r t, (p si xi dt).2 = .ok r → convertTendenciesO (roundedArith fl conv) xi r.1 = .ok t →
            (u ≠ 0 → TendSized I w T t) ∧ NearDerivative I w Q y (L * E + e) (τ + i * (seconds dt : ℝ)) t) ∧
          ∀ lf' s' st d new, tsCallO (roundedArith fl conv) inProps outProps inst tid
            (LFOver.call (roundedArith fl conv) p) lfi si xi dt = (lf', s', st, .ok (d, new)) →
            M (τ + (i + 1 : ℕ) * (seconds dt : ℝ)) E lf' s' (b d new)) →
      runOver (tsCallO (roundedArith fl conv) inProps outProps inst tid (LFOver.call (roundedArith fl conv) p)) b dt n
        lf s x = (lff, sf, .ok xf) →
      NearSolution I w Q y ((1 + 2 * |seconds dt| * L) ^ n * (E + ((List.range n).map fun i =>
        lfAddedError u e X T (seconds dt) + lfStepError ν D (seconds dt) ((if lf.old = none then 0 else 1) + i)).sum))
        (τ + n * (seconds dt : ℝ)) xf := by
  intro n
  induction n with
  | zero =>
    intro E lf s x τ lff sf xf _ _ _ _ hx _ _ _ h
    unfold runOver at h
    simp only [Prod.mk.injEq, Except.ok.injEq] at h
    rw [← h.2.2]
    simpa using hx
  | succ n ih =>
    intro E lf s x τ lff sf xf hE hs1 ha1 hτ hx hMx hold hrun h
    obtain ⟨hXx, hpx⟩ := hrun 0 (by omega) lf s x rfl
    obtain ⟨hd, hpx, hMn⟩ := hpx E hE (by simpa using hx) (by simpa using hMx)
    rw [zero_add, Nat.cast_one, one_mul] at hMn
    unfold runOver at h
    rcases hc : tsCallO (roundedArith fl conv) inProps outProps inst tid
      (LFOver.call (roundedArith fl conv) p) lf s x dt with ⟨lf1, s1, st1, er | ⟨d1, new⟩⟩
    · rw [hc] at h; cases h
    rw [hc] at h
    dsimp only at h
    obtain ⟨d, m, hk, hnew⟩ := tsCallO_keeps hc
    have hτ0 : τ ∈ J := by simpa using hτ 0 (by omega)
    have hτ1 : τ + (seconds dt : ℝ) ∈ J := by simpa using hτ 1 (by omega)
    obtain ⟨c1, c2, o1, o2, o3⟩ := lf_step_near hu hfl hw hJ hy hD hL he hX hT (by rw [hs1]; exact hν0) (by rw [hs1]; exact hν)
      (by rw [ha1]; exact hα0) (by rw [ha1]; exact hα) hE hτ0 hτ1 hx hold (fun h0 => (hXx h0).1) (fun h0 => (hXx h0).2) hd
      (fun r t hr ht => ⟨(hpx r t hr ht).1, by simpa using (hpx r t hr ht).2⟩) hk
    rw [hs1] at c1 c2
    have hg0 := lfAddedError_nonneg hu he hX hT (seconds dt)
    have hf0 := lfStepError_nonneg hν0 hD (seconds dt) (if lf.old = none then 0 else 1)
    have hK : 1 ≤ 1 + 2 * |seconds dt| * L := by
      have : 0 ≤ 2 * |seconds dt| * L := by positivity
      linarith
    have hE1 : 0 ≤ (1 + 2 * |seconds dt| * L) * E + lfAddedError u e X T (seconds dt) +
        lfStepError ν D (seconds dt) (if lf.old = none then 0 else 1) := by
      have := mul_nonneg (le_trans zero_le_one hK) hE
      linarith
    have hEE : E ≤ (1 + 2 * |seconds dt| * L) * E + lfAddedError u e X T (seconds dt) +
        lfStepError ν D (seconds dt) (if lf.old = none then 0 else 1) := by
      have := mul_le_mul_of_nonneg_right hK hE
      linarith
    have hforw : ∀ i : Nat, τ + (seconds dt : ℝ) + i * (seconds dt : ℝ) = τ + (i + 1 : ℕ) * (seconds dt : ℝ) := by
      intro i
      push_cast
      ring
    have hres := ih _ lf1 s1 (b d1 new) (τ + (seconds dt : ℝ)) lff sf xf hE1 (o1.trans hs1) (o2.trans ha1)
      (fun i hi => by rw [hforw]; exact hτ (i + 1) (by omega))
      (fun q hq => by
        obtain ⟨a, ha, hv⟩ := c1 q hq
        refine ⟨a, ?_, hv⟩
        rw [hb _ _ q hq, hnew, (copyUntouchedO_spec _ _).2.1 q (Dict.mem_keys_of_get? ha), ha])
      (hM _ _ _ _ _ _ hEE (hMn _ _ _ _ _ hc))
      (fun o ho => by
        rw [o3] at ho
        injection ho with ho
        subst ho
        rw [show τ + (seconds dt : ℝ) + -(seconds dt : ℝ) = τ by ring]
        exact ⟨hτ0, c2⟩)
      (fun i hi lfi si xi hri => by
        rw [hforw, hforw]
        refine hrun (i + 1) (by omega) lfi si xi ?_
        unfold runOver
        rw [hc]
        exact hri) h
    rw [hforw] at hres
    refine hres.mono hw ?_
    have hsum : (fun i => lfAddedError u e X T (seconds dt) + lfStepError ν D (seconds dt) ((if lf1.old = none then 0 else 1) + i)) =
        fun i => lfAddedError u e X T (seconds dt) +
          lfStepError ν D (seconds dt) ((if lf.old = none then 0 else 1) + (i + 1)) := by
      funext i
      unfold lfStepError
      rw [o3, if_neg (by simp)]
      simp only [show ∀ k, ¬ (k + (i + 1) = 0) by omega, if_false]
    rw [hsum]
    exact growth_sum hK hg0 (f := fun i => lfStepError ν D (seconds dt) ((if lf.old = none then 0 else 1) + i))
      (fun i => lfStepError_nonneg hν0 hD _ _) n

/-- C117, C126: the theorem `lf_run_converges` for components that remember things: `M t E lf s x` says that what they
remember (in `s`) at the time `t`, when the state is `x` and the time stepper is `lf`, is good enough for tendencies within
`L E + e`. -/
theorem lf_run_converges_memory (hu : 0 ≤ u) (hfl : Rounds u fl) (conv : DataArray → String → Except Err DataArray)
    (hw : ∀ q, 0 ≤ w q) (hJ : Convex ℝ J) (hy : SmoothDuring I w Q y J 2 D) (hD : ∀ j, 0 ≤ D j)
    (hL : 0 ≤ L) (he : 0 ≤ e) (hX : 0 ≤ X) (hT : 0 ≤ T)
    {ν α : Rat} (hν0 : 0 ≤ ν) (hν : ν ≤ 1) (hα0 : 0 ≤ α) (hα : α ≤ 1)
    (inProps outProps : PropDict) (inst : String) (tid : Bool)
    {b : Dict DataArray → EState DataArray → EState DataArray}
    (hb : ∀ d x q, Q q → Dict.get? (b d x) q = Dict.get? x q)
    {M : ℝ → Rat → LFOver DataArray → σ → EState DataArray → Prop}
    (hM : ∀ t E E' lf s x, E ≤ E' → M t E lf s x → M t E' lf s x) (n : Nat)
    {E0 : Rat} (hE0 : 0 ≤ E0) (s : σ) (x : EState DataArray) (t0 : ℝ) {lff : LFOver DataArray} {sf : σ}
    {xf : EState DataArray} (htimes : ∀ i ≤ n, t0 + i * (seconds dt : ℝ) ∈ J) (hx : NearSolution I w Q y E0 t0 x)
    (hMx : M t0 E0 { strength := ν, alpha := α } s x)
    (hrun : ∀ i < n, ∀ lfi si xi, runOver (tsCallO (roundedArith fl conv) inProps outProps inst tid
          (LFOver.call (roundedArith fl conv) p)) b dt i { strength := ν, alpha := α } s x = (lfi, si, .ok xi) →
        (u ≠ 0 → StateSized I w X xi ∧ ∀ o, lfi.old = some o → StateSized I w X o) ∧
        ∀ E, 0 ≤ E → NearSolution I w Q y E (t0 + i * (seconds dt : ℝ)) xi → M (t0 + i * (seconds dt : ℝ)) E lfi si xi →
          (∀ r, (p si xi dt).2 = .ok r → (Dict.keys r.1).Nodup) ∧
          (∀ r t, (p si xi dt).2 = .ok r → convertTendenciesO (roundedArith fl conv) xi r.1 = .ok t →
            (u ≠ 0 → TendSized I w T t) ∧ NearDerivative I w Q y (L * E + e) (t0 + i * (seconds dt : ℝ)) t) ∧
          ∀ lf' s' st d new, tsCallO (roundedArith fl conv) inProps outProps inst tid
            (LFOver.call (roundedArith fl conv) p) lfi si xi dt = (lf', s', st, .ok (d, new)) →
            M (t0 + (i + 1 : ℕ) * (seconds dt : ℝ)) E lf' s' (b d new))
    (h : runOver (tsCallO (roundedArith fl conv) inProps outProps inst tid (LFOver.call (roundedArith fl conv) p)) b dt n
        { strength := ν, alpha := α } s x = (lff, sf, .ok xf)) :
    NearSolution I w Q y ((1 + 2 * |seconds dt| * L) ^ n * (E0 + ((List.range n).map fun i =>
      lfStepError ν D (seconds dt) i + lfAddedError u e X T (seconds dt)).sum)) (t0 + n * (seconds dt : ℝ)) xf := by
  have := lf_runs_near hu hfl hw hJ hy hD hL he hX hT hν0 hν hα0 hα inProps outProps inst tid hb hM n E0
    { strength := ν, alpha := α } s x t0 lff sf xf hE0 rfl rfl htimes hx hMx (fun o ho => by cases ho) hrun h
  refine this.mono hw (le_of_eq ?_)
  congr 3
  refine List.map_congr_left fun i _ => ?_
  rw [if_pos rfl, Nat.zero_add, add_comm]

/-- C117: a run of `n` steps of a new Leapfrog (filter of strength `ν` and Williams' `α`, both between 0 and 1) in rounded
(or, with `u = 0`, exact) arithmetic ends within `K^n (E0 + sum over the steps of (truncation error + other errors))` of
every solution of the differential equation that starts within `E0` of the initial state, `K = 1 + 2 dt L`, if the
components compute its right hand side: on states within `E` of the solution they give tendencies within `L E + e` of its
derivative. -/
theorem lf_run_converges (hu : 0 ≤ u) (hfl : Rounds u fl) (conv : DataArray → String → Except Err DataArray)
    (hw : ∀ q, 0 ≤ w q) (hJ : Convex ℝ J) (hy : SmoothDuring I w Q y J 2 D) (hD : ∀ j, 0 ≤ D j)
    (hL : 0 ≤ L) (he : 0 ≤ e) (hX : 0 ≤ X) (hT : 0 ≤ T) (hd : GivesDicts p)
    {ν α : Rat} (hν0 : 0 ≤ ν) (hν : ν ≤ 1) (hα0 : 0 ≤ α) (hα : α ≤ 1)
    (inProps outProps : PropDict) (inst : String) (tid : Bool)
    {b : Dict DataArray → EState DataArray → EState DataArray}
    (hb : ∀ d x q, Q q → Dict.get? (b d x) q = Dict.get? x q) (n : Nat)
    {E0 : Rat} (hE0 : 0 ≤ E0) (s : σ) (x : EState DataArray) (t0 : ℝ) {lff : LFOver DataArray} {sf : σ}
    {xf : EState DataArray} (htimes : ∀ i ≤ n, t0 + i * (seconds dt : ℝ) ∈ J) (hx : NearSolution I w Q y E0 t0 x)
    (hrun : ∀ i < n, ∀ lfi si xi, runOver (tsCallO (roundedArith fl conv) inProps outProps inst tid
          (LFOver.call (roundedArith fl conv) p)) b dt i { strength := ν, alpha := α } s x = (lfi, si, .ok xi) →
        (u ≠ 0 → StateSized I w X xi ∧ ∀ o, lfi.old = some o → StateSized I w X o) ∧
        ∀ r t, (p si xi dt).2 = .ok r → convertTendenciesO (roundedArith fl conv) xi r.1 = .ok t →
          (u ≠ 0 → TendSized I w T t) ∧
          ∀ E, 0 ≤ E → NearSolution I w Q y E (t0 + i * (seconds dt : ℝ)) xi →
            NearDerivative I w Q y (L * E + e) (t0 + i * (seconds dt : ℝ)) t)
    (h : runOver (tsCallO (roundedArith fl conv) inProps outProps inst tid (LFOver.call (roundedArith fl conv) p)) b dt n
        { strength := ν, alpha := α } s x = (lff, sf, .ok xf)) :
    NearSolution I w Q y ((1 + 2 * |seconds dt| * L) ^ n * (E0 + ((List.range n).map fun i =>
      lfStepError ν D (seconds dt) i + lfAddedError u e X T (seconds dt)).sum)) (t0 + n * (seconds dt : ℝ)) xf := by
  exact lf_run_converges_memory hu hfl conv hw hJ hy hD hL he hX hT hν0 hν hα0 hα inProps outProps inst tid hb
    (M := fun _ _ _ _ _ => True) (fun _ _ _ _ _ _ _ _ => trivial) n hE0 s x t0 htimes hx trivial
    (fun i hi lfi si xi hri => ⟨(hrun i hi lfi si xi hri).1, fun E hE hne _ => ⟨fun r hr => hd _ _ _ _ hr, fun r t hr ht =>
      ⟨((hrun i hi lfi si xi hri).2 r t hr ht).1, ((hrun i hi lfi si xi hri).2 r t hr ht).2 E hE hne⟩,
      fun _ _ _ _ _ _ => trivial⟩⟩) h

/-- C117: runs in exact arithmetic with components that compute the right hand side exactly, over the time `span = n dt`:
an error of second order in the timestep without the filter, of first order (times the strength of the filter) with it. -/
theorem lf_run_converges_exact (R : Registry) (hw : ∀ q, 0 ≤ w q) (hJ : Convex ℝ J)
    (hy : SmoothDuring I w Q y J 2 D) (hD : ∀ j, 0 ≤ D j) (hL : 0 ≤ L) (hd : GivesDicts p)
    {ν α : Rat} (hν0 : 0 ≤ ν) (hν : ν ≤ 1) (hα0 : 0 ≤ α) (hα : α ≤ 1)
    (inProps outProps : PropDict) (inst : String) (tid : Bool)
    {b : Dict DataArray → EState DataArray → EState DataArray}
    (hb : ∀ d x q, Q q → Dict.get? (b d x) q = Dict.get? x q) (n : Nat) (hn : 1 ≤ n)
    (s : σ) (x : EState DataArray) (t0 : ℝ) {lff : LFOver DataArray} {sf : σ}
    {xf : EState DataArray} (htimes : ∀ i ≤ n, t0 + i * (seconds dt : ℝ) ∈ J) (hx : NearSolution I w Q y 0 t0 x)
    (hrhs : ∀ i < n, ∀ si xi r t E, (p si xi dt).2 = .ok r → convertTendenciesO (dataArrayArith R) xi r.1 = .ok t →
      0 ≤ E → NearSolution I w Q y E (t0 + i * (seconds dt : ℝ)) xi →
        NearDerivative I w Q y (L * E) (t0 + i * (seconds dt : ℝ)) t)
    (h : runOver (tsCallO (dataArrayArith R) inProps outProps inst tid (LFOver.call (dataArrayArith R) p)) b dt n
        { strength := ν, alpha := α } s x = (lff, sf, .ok xf)) :
    ∀ q, Q q → ∃ a, Dict.get? xf q = some (.da a) ∧ ∀ ix, I ix →
      |(a.at' ix : ℝ) - y 0 q ix (t0 + n * (seconds dt : ℝ))| ≤ Real.exp (2 * L * (n * |(seconds dt : ℝ)|)) *
        (ν * (D 2 / 2) * (n * |(seconds dt : ℝ)|) * |(seconds dt : ℝ)| +
          (D 2 / 2 + D 3 / 3 * (n * |(seconds dt : ℝ)|)) * |(seconds dt : ℝ)| ^ 2) * w q := by
  rw [← roundedArith_id R] at h hrhs
  have main := lf_run_converges (u := 0) (fl := id) (le_refl 0) id_rounds _ hw hJ hy hD hL (le_refl (0 : Rat))
    (le_refl (0 : Rat)) (le_refl (0 : Rat)) hd hν0 hν hα0 hα inProps outProps inst tid hb n (le_refl (0 : Rat)) s x t0 htimes
    hx (fun i hi lfi si xi _ => ⟨fun h0 => absurd rfl h0, fun r t hr ht => ⟨fun h0 => absurd rfl h0, fun E hE hne => by
      rw [add_zero]
      exact hrhs i hi si xi r t E hr ht hE hne⟩⟩) h
  have hadd : lfAddedError 0 0 0 0 (seconds dt) = 0 := by
    unfold lfAddedError
    simp
  simp only [hadd, add_zero, zero_add] at main
  intro q hq
  obtain ⟨a, ha, hv⟩ := main q hq
  refine ⟨a, ha, fun ix hix => le_trans (hv ix hix) ?_⟩
  have hwq : (0 : ℝ) ≤ w q := by exact_mod_cast hw q
  refine mul_le_mul_of_nonneg_right ?_ hwq
  have hh : (0 : ℝ) ≤ |(seconds dt : ℝ)| := abs_nonneg _
  have hL' : (0 : ℝ) ≤ L := by exact_mod_cast hL
  have hD2 : (0 : ℝ) ≤ D 2 := by exact_mod_cast hD 2
  have hD3 : (0 : ℝ) ≤ D 3 := by exact_mod_cast hD 3
  have hν0' : (0 : ℝ) ≤ ν := by exact_mod_cast hν0
  have hK : (1 + 2 * |(seconds dt : ℝ)| * L) ^ n ≤ Real.exp (2 * L * (n * |(seconds dt : ℝ)|)) := by
    have h1 : 1 + 2 * |(seconds dt : ℝ)| * L ≤ Real.exp (2 * |(seconds dt : ℝ)| * L) := by
      have := Real.add_one_le_exp (2 * |(seconds dt : ℝ)| * L)
      linarith
    refine le_trans (pow_le_pow_left₀ (by positivity) h1 n) (le_of_eq ?_)
    rw [← Real.exp_nat_mul]
    congr 1
    ring
  obtain ⟨n, rfl⟩ : ∃ m, n = m + 1 := ⟨n - 1, by omega⟩
  have hsum : ((List.range (n + 1)).map fun i => lfStepError ν D (seconds dt) i).sum =
      D 2 / 2 * |seconds dt| ^ 2 + n * (ν * (D 2 / 2 * |seconds dt| ^ 2) + D 3 / 3 * |seconds dt| ^ 3) := by
    rw [List.range_succ_eq_map, List.map_cons, List.sum_cons, List.map_map]
    have : (fun i => lfStepError ν D (seconds dt) i) ∘ Nat.succ =
        fun _ => ν * (D 2 / 2 * |seconds dt| ^ 2) + D 3 / 3 * |seconds dt| ^ 3 := by
      funext i
      show lfStepError ν D (seconds dt) (i + 1) = _
      unfold lfStepError
      rw [if_neg (by omega)]
    rw [this, List.map_const', List.sum_replicate, List.length_range, nsmul_eq_mul]
    rfl
  push_cast at hK
  rw [hsum]
  push_cast
  refine mul_le_mul hK ?_ (by positivity) (le_of_lt (Real.exp_pos _))
  have h1 : (0 : ℝ) ≤ ν * (D 2 / 2 * |(seconds dt : ℝ)| ^ 2) + D 3 / 3 * |(seconds dt : ℝ)| ^ 3 := by positivity
  nlinarith

end

/-! ## Non-vacuity -/

/-- the run of the next example returns, and is not exact -/
example : Exc.test (runOver (tsCallO (roundedArith binary64 Demo.asIs) [] [] "" false
      (LFOver.call (roundedArith binary64 Demo.asIs) (Demo.fades (roundedArith binary64 Demo.asIs)))) (fun _ s => s)
      1000000 2 { strength := 1 / 20, alpha := 1 / 2 } () (Demo.scalarT 7)).2.2
      (fun s => Demo.valueIn s "T" (fun _ => 0) ≠ (runOver (tsCallO (dataArrayArith Demo.reg) [] [] "" false
      (LFOver.call (dataArrayArith Demo.reg) (Demo.fades (dataArrayArith Demo.reg)))) (fun _ s => s)
      1000000 2 { strength := 1 / 20, alpha := 1 / 2 } () (Demo.scalarT 7)).2.2.toOption.elim 0
        (fun s => Demo.valueIn s "T" (fun _ => 0))) = true := by
  decide +kernel

/-- two steps with the default filter in `float64` arithmetic from 7 K: within 0.06 K of `7 exp(-0.2) K`, all hypotheses
of `lf_run_converges` met -/
example {lff : LFOver DataArray} {xf : EState DataArray}
    (h : runOver (tsCallO (roundedArith binary64 Demo.asIs) [] [] "" false
      (LFOver.call (roundedArith binary64 Demo.asIs) (Demo.fades (roundedArith binary64 Demo.asIs)))) (fun _ s => s)
      1000000 2 { strength := 1 / 20, alpha := 1 / 2 } () (Demo.scalarT 7) = (lff, (), .ok xf)) :
    NearSolution Demo.origin (fun _ => 1) (· = "T") Demo.fading (3 / 50) 2 xf := by
  have hs : seconds 1000000 = 1 := by decide +kernel
  have := lf_run_converges (u := 2 ^ (-53 : Int)) (by positivity) binary64_rounds Demo.asIs (fun _ => by norm_num)
    (convex_Ici 0) (Demo.fading_smooth 2) (fun j => by positivity) (L := 1 / 10)
    (e := ((1 + 2 ^ (-53 : Int)) ^ 2 - 1) * (1 / 10 * 7)) (X := 7) (T := 1) (by norm_num) (by decide +kernel) (by norm_num)
    (by norm_num) (Demo.fades_dicts _) (ν := 1 / 20) (α := 1 / 2) (by norm_num) (by norm_num) (by norm_num) (by norm_num)
    [] [] "" false (b := fun _ s => s) (fun _ _ _ _ => rfl) 2 (le_refl (0 : Rat)) ()
    (Demo.scalarT 7) 0
    (fun i _ => by
      rw [hs]
      show (0 : ℝ) ≤ 0 + i * ((1 : Rat) : ℝ)
      push_cast
      positivity) Demo.fading_starts
    (by
      intro i hi lfi si xi hrun
      have hsm : Demo.small xi = true ∧ ∀ o, lfi.old = some o → Demo.small o = true := by
        rcases (by omega : i = 0 ∨ i = 1) with rfl | rfl
        · cases hrun
          exact ⟨by decide +kernel, fun o ho => by cases ho⟩
        · have ht : Exc.test (runOver (tsCallO (roundedArith binary64 Demo.asIs) [] [] "" false
            (LFOver.call (roundedArith binary64 Demo.asIs) (Demo.fades (roundedArith binary64 Demo.asIs)))) (fun _ s => s)
            1000000 1 { strength := 1 / 20, alpha := 1 / 2 } () (Demo.scalarT 7)).2.2 Demo.small = true := by decide +kernel
          have ho : (runOver (tsCallO (roundedArith binary64 Demo.asIs) [] [] "" false
            (LFOver.call (roundedArith binary64 Demo.asIs) (Demo.fades (roundedArith binary64 Demo.asIs)))) (fun _ s => s)
            1000000 1 { strength := 1 / 20, alpha := 1 / 2 } () (Demo.scalarT 7)).1.old.elim true Demo.small = true := by
            decide +kernel
          rw [hrun] at ht ho
          refine ⟨ht, fun o hlo => ?_⟩
          rw [hlo] at ho
          exact ho
      obtain ⟨h1, h2⟩ := Demo.small_sized hsm.1
      exact ⟨fun _ => ⟨h1, fun o ho => (Demo.small_sized (hsm.2 o ho)).1⟩, fun r t hr ht => ⟨fun _ => h2 r t hr ht,
        fun E _ hne => Demo.fades_rhs (by positivity) binary64_rounds (fun _ => h1) hne hr ht⟩⟩) h
  rw [hs] at this
  have htime : (0 : ℝ) + (2 : ℕ) * ((1 : Rat) : ℝ) = 2 := by norm_num
  rw [htime] at this
  exact this.mono (fun _ => by norm_num) (by decide +kernel)

/-- a run of any number of steps without filter: an error of second order in the timestep -/
example (dt : Int) (hdt : 0 ≤ dt) (n : Nat) (hn : 1 ≤ n) {lff : LFOver DataArray} {xf : EState DataArray}
    (h : runOver (tsCallO (dataArrayArith Demo.reg) [] [] "" false
      (LFOver.call (dataArrayArith Demo.reg) (Demo.fades (dataArrayArith Demo.reg)))) (fun _ s => s)
      dt n { strength := 0, alpha := 1 / 2 } () (Demo.scalarT 7) = (lff, (), .ok xf)) :
    ∃ a, Dict.get? xf "T" = some (.da a) ∧ |(a.at' (fun _ => 0) : ℝ) - 7 * Real.exp (-((n * (seconds dt : ℝ)) / 10))| ≤
      Real.exp (1 / 5 * (n * (seconds dt : ℝ))) * (7 / 200 + 7 / 3000 * (n * (seconds dt : ℝ))) * (seconds dt : ℝ) ^ 2 := by
  have hs0 : (0 : ℝ) ≤ (seconds dt : ℝ) := by
    unfold seconds
    push_cast
    have : (0 : ℝ) ≤ (dt : ℝ) := by exact_mod_cast hdt
    positivity
  obtain ⟨a, ha, hv⟩ := lf_run_converges_exact Demo.reg (fun _ => by norm_num) (convex_Ici 0)
    (Demo.fading_smooth 2) (fun j => by positivity) (L := 1 / 10) (by norm_num) (Demo.fades_dicts _) (ν := 0) (α := 1 / 2)
    (le_refl 0) (by norm_num) (by norm_num) (by norm_num) [] [] "" false (b := fun _ s => s)
    (fun _ _ _ _ => rfl) n hn () (Demo.scalarT 7) 0
    (fun i _ => by
      show (0 : ℝ) ≤ 0 + i * (seconds dt : ℝ)
      positivity) Demo.fading_starts
    (fun i _ si xi r t E hr ht _ hne => by
      rw [← roundedArith_id] at hr ht
      have := Demo.fades_rhs (u := 0) (X := 0) (le_refl 0) id_rounds (fun h0 => absurd rfl h0) hne hr ht
      simpa using this) h "T" rfl
  refine ⟨a, ha, ?_⟩
  have := hv (fun _ => 0) rfl
  rw [abs_of_nonneg hs0, zero_add] at this
  unfold Demo.fading at this
  rw [pow_zero, one_mul] at this
  refine le_trans this (le_of_eq ?_)
  push_cast
  rw [show (2 * (1 / 10) * (n * (seconds dt : ℝ)) : ℝ) = 1 / 5 * (n * (seconds dt : ℝ)) by ring]
  ring

end Verif

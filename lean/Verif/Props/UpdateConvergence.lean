import Verif.Model.UpdateOver
import Verif.Props.Convergence
/-! # Adams-Bashforth runs with components in UpdateFrequencyWrappers: property C118 -/

namespace Verif

/-- Every quantity of `x` is in `x'` in the same units. -/
def KeepsUnits (x x' : EState DataArray) : Prop :=
  ∀ q a, Dict.get? x q = some (.da a) → ∃ a', Dict.get? x' q = some (.da a') ∧ Dict.get? a'.attrs "units" = Dict.get? a.attrs "units"

section
variable {σ V : Type}

/-- What a wrapped component returns is new output, or the output it remembers. -/
theorem updatingO_ok {implicit : Bool} {p : ProgOver σ V} {s : σ} {w : UFW (Dict V × Dict V)} {x : EState V} {dt : Int}
    {r : Dict V × Dict V} (h : (updatingO implicit p (s, w) x dt).2 = .ok r) :
    ∃ c, x.clock = .ok c ∧
      (((p s x dt).2 = .ok r ∧ (updatingO implicit p (s, w) x dt).1 = ((p s x dt).1, { w with cached := some r, last := some c })) ∨
       ∃ tl, w.last = some tl ∧ c < tl + w.delta ∧ w.cached = some r ∧ (updatingO implicit p (s, w) x dt).1 = (s, w)) := by
  have hrun : ∀ {s1 out}, runComponent
      (fun s x odt => if odt.isSome = implicit then p s x dt else (s, Except.error Err.typeError)) s x
      (if implicit then some dt else none) = (s1, .ok out) → (p s x dt).2 = .ok out ∧ s1 = (p s x dt).1 := by
    intro s1 out hr
    unfold runComponent at hr
    cases implicit with
    | false =>
      simp only [Bool.false_eq_true, if_false, Option.isSome_none, if_true] at hr
      rw [hr]
      exact ⟨rfl, rfl⟩
    | true =>
      simp only [if_true, Option.isSome_some, Option.isSome_none, Bool.false_eq_true, if_false] at hr
      split at hr
      · cases hr
      · rw [hr]
        exact ⟨rfl, rfl⟩
  have href : ∀ {w' s1 o}, UFW.refresh EState.clock
      (fun s x odt => if odt.isSome = implicit then p s x dt else (s, Except.error Err.typeError)) w s x
      (if implicit then some dt else none) = (w', s1, .ok o) →
      ∃ c out, x.clock = .ok c ∧ o = some out ∧ (p s x dt).2 = .ok out ∧ s1 = (p s x dt).1 ∧
        w' = { w with cached := some out, last := some c } := by
    intro w' s1 o hr
    unfold UFW.refresh at hr
    split at hr
    · cases hr
    · rename_i s2 out hc
      split at hr
      · cases hr
      · rename_i c htc
        cases hr
        obtain ⟨h1, h2⟩ := hrun hc
        exact ⟨c, out, htc, rfl, h1, h2, rfl⟩
  unfold updatingO at h ⊢
  dsimp only at h ⊢
  rcases hc : UFW.call EState.clock
      (fun s x odt => if odt.isSome = implicit then p s x dt else (s, Except.error Err.typeError)) w s x
      (if implicit then some dt else none) with ⟨w', s', er | o⟩
  · rw [hc] at h; cases h
  rw [hc] at h
  have hcall := hc
  unfold UFW.call at hcall
  split at hcall
  · obtain ⟨c, out, h1, rfl, h2, h3, h4⟩ := href hcall
    cases h
    exact ⟨c, h1, Or.inl ⟨h2, by rw [h3, h4]⟩⟩
  · rename_i tl hl
    split at hcall
    · cases hcall
    · rename_i c htc
      split at hcall
      · obtain ⟨c', out, h1, rfl, h2, h3, h4⟩ := href hcall
        cases h
        exact ⟨c', h1, Or.inl ⟨h2, by rw [h3, h4]⟩⟩
      · rename_i hlt
        simp only [Prod.mk.injEq, Except.ok.injEq] at hcall
        obtain ⟨rfl, rfl, ho⟩ := hcall
        refine ⟨c, htc, Or.inr ⟨tl, hl, by omega, ?_, rfl⟩⟩
        rw [ho]
        cases o with
        | none => cases h
        | some o => cases h; rfl

end

section
variable {fl : Rat → Rat} {conv : DataArray → String → Except Err DataArray}

/-- Tendencies are converted in the same way for states in the same units. -/
theorem convertTendenciesO_units {x x' : EState DataArray} (hx : KeepsUnits x x') {t t1 : Dict DataArray}
    (h : convertTendenciesO (roundedArith fl conv) x t = .ok t1) :
    convertTendenciesO (roundedArith fl conv) x' t = .ok t1 := by
  induction t generalizing t1 with
  | nil => exact h
  | cons qv rest ih =>
    obtain ⟨q, v⟩ := qv
    unfold convertTendenciesO at h ⊢
    obtain ⟨v', hv, h⟩ := Exc.bind_ok_iff.1 h
    obtain ⟨rest', hr, h⟩ := Exc.bind_ok_iff.1 h
    rw [ih hr]
    have : convertTendencyO (roundedArith fl conv) x' q v = .ok v' := by
      unfold convertTendencyO at hv ⊢
      rw [if_pos (show (roundedArith fl conv).isContainer v = true from rfl)] at hv ⊢
      cases hg : ((roundedArith fl conv).attrs v).get? "units" with
      | none => rw [hg] at hv; exact hv
      | some un0 =>
        rw [hg] at hv
        dsimp only at hv ⊢
        obtain ⟨a, ha, hv⟩ := Exc.bind_ok_iff.1 hv
        obtain ⟨a', ha', hu⟩ := hx q a (EState.da_ok.1 ha)
        rw [EState.da_ok.2 ha', Exc.ok_bind]
        obtain ⟨un, hun, hv⟩ := Exc.bind_ok_iff.1 hv
        have : ((roundedArith fl conv).attrs a').get "units" = .ok un := by
          rw [Dict.get_eq_ok] at hun ⊢
          exact hu.trans hun
        rw [this]
        exact hv
    rw [this]
    exact h

/-- A step keeps the units and the time. -/
theorem ab_step_keeps {σ : Type} {p : ProgOver σ DataArray} {inProps outProps : PropDict} {inst : String} {tid : Bool}
    {ab ab' : ABOver DataArray} {s s' : σ} {x st new : EState DataArray} {dt : Int} {d : Dict DataArray}
    (h : tsCallO (roundedArith fl conv) inProps outProps inst tid (abCallO (roundedArith fl conv) p) ab s x dt =
      (ab', s', st, .ok (d, new))) :
    KeepsUnits x new ∧ ∀ c, x.clock = .ok c → new.clock = .ok c := by
  obtain ⟨d0, m, hk, hnew⟩ := tsCallO_keeps h
  unfold abCallO at hk
  simp only [Prod.mk.injEq] at hk
  obtain ⟨a1, a2, a3, a4⟩ := hk
  subst a3
  obtain ⟨r, t, nn, hr, ht, hn, hm, _⟩ := abOver_ok (A := roundedArith fl conv) (prog := p)
    (ab := ab) (s := s) (state := x) (dt := dt) (ab' := ab') (s' := s') (diag := d0) (new := m)
    (by rw [← a1, ← a2, ← a4])
  obtain ⟨_, _, _, _, _, hq⟩ := performStepO_spec hn
  have hget : ∀ q, q ∈ Dict.keys x → q ∉ Dict.keys nn → Dict.get? new q = Dict.get? x q := by
    intro q hqx hqn
    obtain ⟨c1, c2, c3⟩ := copyUntouchedO_spec x nn
    obtain ⟨d1, d2, d3⟩ := copyUntouchedO_spec x (copyUntouchedO x nn)
    rw [hnew, hm, d2 q ((c1 q).2 (Or.inl hqx)), c3 q hqn]
  have hgetn : ∀ q, q ∈ Dict.keys nn → Dict.get? new q = Dict.get? nn q := by
    intro q hqn
    obtain ⟨c1, c2, c3⟩ := copyUntouchedO_spec x nn
    obtain ⟨d1, d2, d3⟩ := copyUntouchedO_spec x (copyUntouchedO x nn)
    rw [hnew, hm, d2 q ((c1 q).2 (Or.inr hqn)), c2 q hqn]
  refine ⟨fun q a ha => ?_, fun c hc => ?_⟩
  · by_cases hqn : q ∈ Dict.keys nn
    · obtain ⟨x', r', hx', hr', hat, _⟩ := hq q hqn
      rw [ha] at hx'
      cases hx'
      exact ⟨r', by rw [hgetn q hqn, hr'], by rw [hat]⟩
    · exact ⟨a, by rw [hget q (Dict.mem_keys_of_get? ha) hqn, ha], rfl⟩
  · have hct : Dict.get? x "time" = some (.time c) := by
      unfold EState.clock at hc
      split at hc
      · rename_i t hx
        cases hc
        exact hx
      · cases hc
      · cases hc
    by_cases hqn : "time" ∈ Dict.keys nn
    · obtain ⟨x', _, hx', _⟩ := hq "time" hqn
      rw [hct] at hx'
      cases hx'
    · unfold EState.clock
      rw [hget _ (Dict.mem_keys_of_get? hct) hqn, hct]

end

section
variable {u : Rat} {fl : Rat → Rat} {I : (String → Nat) → Prop}
  {w : String → Rat} {Q : String → Prop} {y : Trajectory} {J : Set ℝ} {k : Nat} {D : Nat → Rat}

/-- The derivative changes by at most `D 2 h` in the time `h`. -/
theorem NearDerivative.later (hJ : Convex ℝ J) (hk : 1 ≤ k) (hy : SmoothDuring I w Q y J k D) (hD : ∀ j, 0 ≤ D j)
    (hw : ∀ q, 0 ≤ w q) {F H : Rat} {t t' : ℝ} (ht : t ∈ J) (ht' : t' ∈ J) (hH : |t' - t| ≤ H) {v : Dict DataArray}
    (h : NearDerivative I w Q y F t v) : NearDerivative I w Q y (F + D 2 * H) t' v := by
  intro q hq
  obtain ⟨hqv, hv⟩ := h q hq
  refine ⟨hqv, fun ix hix => ?_⟩
  have hb : ∀ x ∈ J, |y 2 q ix x| ≤ (D 2 : ℝ) * w q := fun x hx => by
    have := hy.bound 2 (by omega) q hq ix hix x hx
    exact_mod_cast this
  have hmv := taylor_within hJ (n := 1) (d := fun j => y (j + 1) q ix) (h := t' - t) ht (by simpa using ht')
    (fun j hj x hx => hy.deriv (j + 1) (by omega) q hq ix hix x hx) hb
  have h0 : taylorSum (fun k => y (k + 1) q ix t) 1 (t' - t) = y 1 q ix t := by
    unfold taylorSum
    simp
  rw [h0, show t + (t' - t) = t' by ring] at hmv
  have hmv' : |y 1 q ix t' - y 1 q ix t| ≤ (D 2 : ℝ) * w q * H := by
    refine le_trans hmv ?_
    have hDw : (0 : ℝ) ≤ (D 2 : ℝ) * w q := mul_nonneg (by exact_mod_cast hD 2) (by exact_mod_cast hw q)
    refine mul_le_mul_of_nonneg_left ?_ hDw
    simpa using hH
  have h1 := hv ix hix
  have h2 := abs_sub ((tval v q ix : ℝ) - y 1 q ix t) (y 1 q ix t' - y 1 q ix t)
  rw [show (tval v q ix : ℝ) - y 1 q ix t - (y 1 q ix t' - y 1 q ix t) = (tval v q ix : ℝ) - y 1 q ix t' by ring] at h2
  push_cast
  linarith

/-- What a wrapper remembers is good enough: nothing yet, or output computed at most now from a state within `E` of the
solution (from any state if the output is never used again because the time between updates is zero). -/
def GoodCache (I : (String → Nat) → Prop) (w : String → Rat) (Q : String → Prop) (y : Trajectory) (J : Set ℝ)
    (A : Arith DataArray) (u L e T : Rat) (delta : Int) (τ : ℝ) (E : Rat) (c : UFW (Dict DataArray × Dict DataArray))
    (x : EState DataArray) : Prop :=
  c.delta = delta ∧ (∃ now, x.clock = .ok now ∧ τ = (seconds now : ℝ)) ∧
  ((∀ tl, c.last = some tl → delta = 0 ∧ (seconds tl : ℝ) ≤ τ) ∨ ∃ r tl t, c.cached = some r ∧ c.last = some tl ∧ (seconds tl : ℝ) ∈ J ∧ (seconds tl : ℝ) ≤ τ ∧
    convertTendenciesO A x r.1 = .ok t ∧ (u ≠ 0 → TendSized I w T t) ∧
    NearDerivative I w Q y (L * E + e) (seconds tl) t)

theorem seconds_add (a b : Int) : ((seconds (a + b) : Rat) : ℝ) = (seconds a : ℝ) + (seconds b : ℝ) := by
  unfold seconds
  push_cast
  ring

theorem seconds_nonneg {a : Int} (h : 0 ≤ a) : (0 : ℝ) ≤ (seconds a : ℝ) := by
  unfold seconds
  push_cast
  have : (0 : ℝ) ≤ (a : ℝ) := by exact_mod_cast h
  positivity

theorem seconds_le {a b : Int} (h : a ≤ b) : (seconds a : ℝ) ≤ (seconds b : ℝ) := by
  have := seconds_add a (b - a)
  rw [show a + (b - a) = b by ring] at this
  have := seconds_nonneg (show 0 ≤ b - a by omega)
  linarith

theorem seconds_le_iff {a b : Int} : (seconds a : ℝ) ≤ (seconds b : ℝ) ↔ a ≤ b := by
  refine ⟨fun h => ?_, seconds_le⟩
  unfold seconds at h
  push_cast at h
  have : (a : ℝ) ≤ (b : ℝ) := by linarith
  exact_mod_cast this

/-- C118: a run of `n` steps of a new AdamsBashforth with a component in a new UpdateFrequencyWrapper with the time between
updates `delta` ends within the bound of C115, where the tendencies have the additional error `D2 delta`: what the
derivative of the solution can change until the next update. -/
theorem ab_run_updating (hu : 0 ≤ u) (hfl : Rounds u fl) (conv : DataArray → String → Except Err DataArray)
    (hw : ∀ q, 0 ≤ w q) (hJ : Convex ℝ J) (hy : SmoothDuring I w Q y J k D) (hD : ∀ j, 0 ≤ D j)
    {L e X T : Rat} (hL : 0 ≤ L) (he : 0 ≤ e) (hX : 0 ≤ X) (hT : 0 ≤ T)
    {σ : Type} {p : ProgOver σ DataArray} (implicit : Bool) (inProps outProps : PropDict) (inst : String) (tid : Bool)
    {b : Dict DataArray → EState DataArray → EState DataArray} {dt delta : Int} (hdt : 0 ≤ dt) (hdelta : 0 ≤ delta)
    (hb : ∀ d x q, Q q → Dict.get? (b d x) q = Dict.get? x q) (hbu : ∀ d x, KeepsUnits x (b d x))
    (hbt : ∀ d x c, EState.clock x = .ok c → EState.clock (b d x) = .ok (c + dt)) (n : Nat) (hk : 1 ≤ k)
    {E0 : Rat} (hE0 : 0 ≤ E0) (s : σ) (x : EState DataArray) {now : Int} (hnow : x.clock = .ok now)
    {abf : ABOver DataArray} {sf : σ × UFW (Dict DataArray × Dict DataArray)}
    {xf : EState DataArray} (htimes : ∀ i ≤ n, (seconds now : ℝ) + i * (seconds dt : ℝ) ∈ J)
    (hx : NearSolution I w Q y E0 (seconds now) x)
    (hrun : ∀ i < n, ∀ abi si wi xi, runOver (tsCallO (roundedArith fl conv) inProps outProps inst tid
          (abCallO (roundedArith fl conv) (updatingO implicit p))) b dt i { order := k } (s, { delta := delta }) x =
            (abi, (si, wi), .ok xi) →
        (u ≠ 0 → StateSized I w X xi) ∧
        ∀ r t, (p si xi dt).2 = .ok r → convertTendenciesO (roundedArith fl conv) xi r.1 = .ok t →
          (u ≠ 0 → TendSized I w T t) ∧
          ∀ E, 0 ≤ E → NearSolution I w Q y E ((seconds now : ℝ) + i * (seconds dt : ℝ)) xi →
            NearDerivative I w Q y (L * E + e) ((seconds now : ℝ) + i * (seconds dt : ℝ)) t)
    (h : runOver (tsCallO (roundedArith fl conv) inProps outProps inst tid
        (abCallO (roundedArith fl conv) (updatingO implicit p))) b dt n { order := k } (s, { delta := delta }) x =
          (abf, sf, .ok xf)) :
    NearSolution I w Q y ((1 + |seconds dt| * (20 / 3) * L) ^ n * (E0 + ((List.range n).map fun i =>
      abStepError k D (seconds dt) i + addedError u (e + D 2 * seconds delta) X T (seconds dt)).sum))
      ((seconds now : ℝ) + n * (seconds dt : ℝ)) xf := by
  have hsd : (0 : ℝ) ≤ (seconds delta : ℝ) := seconds_nonneg hdelta
  have hsd' : 0 ≤ seconds delta := by exact_mod_cast hsd
  have hsdt : (0 : ℝ) ≤ (seconds dt : ℝ) := seconds_nonneg hdt
  have hDd : 0 ≤ D 2 * seconds delta := mul_nonneg (hD 2) hsd'
  refine ab_run_converges_memory hu hfl conv hw hJ hy hD hL (add_nonneg he hDd) hX hT inProps outProps inst tid hb dt
    (Z := fun x x' => KeepsUnits x x' ∧ ∀ c, EState.clock x = .ok c → EState.clock x' = .ok (c + dt))
    (M := fun τ E s x => GoodCache I w Q y J (roundedArith fl conv) u L e T delta τ E s.2 x)
    ?_ ?_ n hk hE0 (s, { delta := delta }) x (seconds now) htimes hx ⟨rfl, ⟨now, hnow, rfl⟩, Or.inl fun tl h => (by cases h)⟩ ?_ h
  · intro ab s x ab' s' st d new hc
    obtain ⟨h1, h2⟩ := ab_step_keeps hc
    refine ⟨fun q a ha => ?_, fun c hcl => hbt _ _ _ (h2 c hcl)⟩
    obtain ⟨a', ha', hua⟩ := h1 q a ha
    obtain ⟨a2, ha2, hua2⟩ := hbu d new q a' ha'
    exact ⟨a2, ha2, hua2.trans hua⟩
  · rintro τ E E' s x hE ⟨h1, h2, h3⟩
    refine ⟨h1, h2, ?_⟩
    rcases h3 with h3 | ⟨r, tl, t, g1, g2, g3, g4, g5, g6, g7⟩
    · exact Or.inl h3
    · refine Or.inr ⟨r, tl, t, g1, g2, g3, g4, g5, g6, g7.mono hw ?_⟩
      have := mul_le_mul_of_nonneg_left hE hL
      linarith
  · rintro i hi abi ⟨si, wi⟩ xi hri
    obtain ⟨hXi, hpi⟩ := hrun i hi abi si wi xi hri
    refine ⟨hXi, ?_⟩
    rintro r t hr ht E hE hne ⟨hd, ⟨c, hc, hτ⟩, hcache⟩
    obtain ⟨c', hc', hcase⟩ := updatingO_ok hr
    rw [hc] at hc'
    cases hc'
    have hnext : (seconds now : ℝ) + (i + 1 : ℕ) * (seconds dt : ℝ) = (seconds (c + dt) : ℝ) := by
      rw [seconds_add, ← hτ]
      push_cast
      ring
    have hin : (seconds c : ℝ) ∈ J := by
      rw [← hτ]
      exact htimes i (by omega)
    rcases hcase with ⟨hnew, hs'⟩ | ⟨tl, hl, hlt, hca, hs'⟩
    · obtain ⟨hTt, hnear⟩ := hpi r t hnew ht
      have hn := hnear E hE hne
      refine ⟨hTt, hn.mono hw (by linarith), ?_⟩
      rintro x' ⟨hz1, hz2⟩
      rw [hs']
      refine ⟨hd, ⟨c + dt, hz2 c hc, hnext⟩, Or.inr ⟨r, c, t, rfl, rfl, hin, ?_, convertTendenciesO_units hz1 ht, hTt, ?_⟩⟩
      · rw [hnext, seconds_add]
        linarith
      · rw [← hτ]
        exact hn
    · rcases hcache with hcn | ⟨r', tl', t', g1, g2, g3, g4, g5, g6, g7⟩
      · obtain ⟨h0, h1⟩ := hcn tl hl
        rw [hτ, seconds_le_iff] at h1
        dsimp only at hd hlt
        omega
      · rw [hl] at g2
        cases g2
        rw [hca] at g1
        cases g1
        rw [ht] at g5
        cases g5
        have hdist : |(seconds c : ℝ) - (seconds tl : ℝ)| ≤ (seconds delta : Rat) := by
          rw [← hτ, abs_of_nonneg (by linarith), hτ]
          have := seconds_le (show c ≤ tl + delta by dsimp only at hd hlt; omega)
          rw [seconds_add] at this
          linarith
        refine ⟨g6, ?_, ?_⟩
        · rw [hτ]
          have := g7.later hJ hk hy hD hw g3 hin hdist
          rwa [add_assoc] at this
        · rintro x' ⟨hz1, hz2⟩
          rw [hs']
          refine ⟨hd, ⟨c + dt, hz2 c hc, hnext⟩, Or.inr ⟨r, tl, t, hca, hl, g3, ?_, convertTendenciesO_units hz1 ht, g6, g7⟩⟩
          rw [hnext, seconds_add, ← hτ]
          linarith

/-- C118: such runs in exact arithmetic over the time `n dt`: the error of C115 and an error of first order in the time
between updates, however many steps are taken. -/
theorem ab_run_updating_exact (R : Registry) (hw : ∀ q, 0 ≤ w q) (hJ : Convex ℝ J) {k : Nat} (hk : k = 1 ∨ k = 2)
    (hy : SmoothDuring I w Q y J k D) (hD : ∀ j, 0 ≤ D j) {L : Rat} (hL : 0 ≤ L) {σ : Type} {p : ProgOver σ DataArray}
    (implicit : Bool) (inProps outProps : PropDict) (inst : String) (tid : Bool)
    {b : Dict DataArray → EState DataArray → EState DataArray} {dt delta : Int} (hdt : 0 ≤ dt) (hdelta : 0 ≤ delta)
    (hb : ∀ d x q, Q q → Dict.get? (b d x) q = Dict.get? x q) (hbu : ∀ d x, KeepsUnits x (b d x))
    (hbt : ∀ d x c, EState.clock x = .ok c → EState.clock (b d x) = .ok (c + dt)) (n : Nat) (hn : 1 ≤ n) (s : σ)
    (x : EState DataArray) {now : Int} (hnow : x.clock = .ok now) {abf : ABOver DataArray}
    {sf : σ × UFW (Dict DataArray × Dict DataArray)} {xf : EState DataArray}
    (htimes : ∀ i ≤ n, (seconds now : ℝ) + i * (seconds dt : ℝ) ∈ J) (hx : NearSolution I w Q y 0 (seconds now) x)
    (hrhs : ∀ i < n, ∀ si xi r t E, (p si xi dt).2 = .ok r → convertTendenciesO (dataArrayArith R) xi r.1 = .ok t →
      0 ≤ E → NearSolution I w Q y E ((seconds now : ℝ) + i * (seconds dt : ℝ)) xi →
        NearDerivative I w Q y (L * E) ((seconds now : ℝ) + i * (seconds dt : ℝ)) t)
    (h : runOver (tsCallO (dataArrayArith R) inProps outProps inst tid (abCallO (dataArrayArith R) (updatingO implicit p)))
      b dt n { order := k } (s, { delta := delta }) x = (abf, sf, .ok xf)) :
    ∀ q, Q q → ∃ a, Dict.get? xf q = some (.da a) ∧ ∀ ix, I ix →
      |(a.at' ix : ℝ) - y 0 q ix ((seconds now : ℝ) + n * (seconds dt : ℝ))| ≤
        Real.exp (20 / 3 * L * (n * (seconds dt : ℝ))) *
        ((if k = 1 then D 2 / 2 * (n * (seconds dt : ℝ)) * (seconds dt : ℝ)
          else (D 2 / 2 + 5 / 12 * D 3 * (n * (seconds dt : ℝ))) * (seconds dt : ℝ) ^ 2) +
          20 / 3 * D 2 * (n * (seconds dt : ℝ)) * (seconds delta : ℝ)) * w q := by
  rw [← roundedArith_id R] at h hrhs
  have main := ab_run_updating (u := 0) (fl := id) (le_refl 0) id_rounds _ hw hJ hy hD hL (le_refl (0 : Rat))
    (le_refl (0 : Rat)) (le_refl (0 : Rat)) implicit inProps outProps inst tid hdt hdelta hb hbu hbt n (by omega)
    (le_refl (0 : Rat)) s x hnow htimes hx
    (fun i hi abi si wi xi _ => ⟨fun h0 => absurd rfl h0, fun r t hr ht => ⟨fun h0 => absurd rfl h0, fun E hE hne => by
      rw [add_zero]
      exact hrhs i hi si xi r t E hr ht hE hne⟩⟩) h
  have hh : (0 : ℝ) ≤ (seconds dt : ℝ) := seconds_nonneg hdt
  have hd0 : (0 : ℝ) ≤ (seconds delta : ℝ) := seconds_nonneg hdelta
  have hh' : 0 ≤ seconds dt := by exact_mod_cast hh
  have hadd : addedError 0 (D 2 * seconds delta) 0 0 (seconds dt) = seconds dt * (20 / 3) * (D 2 * seconds delta) := by
    unfold addedError
    rw [abs_of_nonneg hh']
    simp
  rw [List.sum_map_add] at main
  simp only [zero_add, hadd, List.map_const', List.sum_replicate, List.length_range, nsmul_eq_mul, abs_of_nonneg hh'] at main
  intro q hq
  obtain ⟨a, ha, hv⟩ := main q hq
  refine ⟨a, ha, fun ix hix => le_trans (hv ix hix) ?_⟩
  have hwq : (0 : ℝ) ≤ w q := by exact_mod_cast hw q
  refine mul_le_mul_of_nonneg_right ?_ hwq
  have hL' : (0 : ℝ) ≤ L := by exact_mod_cast hL
  have hD2 : (0 : ℝ) ≤ D 2 := by exact_mod_cast hD 2
  have hD3 : (0 : ℝ) ≤ D 3 := by exact_mod_cast hD 3
  have hK : (1 + (seconds dt : ℝ) * (20 / 3) * L) ^ n ≤ Real.exp (20 / 3 * L * (n * (seconds dt : ℝ))) := by
    have h1 : 1 + (seconds dt : ℝ) * (20 / 3) * L ≤ Real.exp ((seconds dt : ℝ) * (20 / 3) * L) := by
      have := Real.add_one_le_exp ((seconds dt : ℝ) * (20 / 3) * L)
      linarith
    refine le_trans (pow_le_pow_left₀ (by positivity) h1 n) (le_of_eq ?_)
    rw [← Real.exp_nat_mul]
    congr 1
    ring
  obtain ⟨n, rfl⟩ : ∃ m, n = m + 1 := ⟨n - 1, by omega⟩
  push_cast at hK
  rcases hk with rfl | rfl
  · rw [(abStepError_sum D (seconds dt) (n + 1)).1, if_pos rfl, abs_of_nonneg hh']
    push_cast
    refine mul_le_mul hK (le_of_eq (by ring)) (by positivity) (le_of_lt (Real.exp_pos _))
  · rw [(abStepError_sum D (seconds dt) n).2, if_neg (by norm_num), abs_of_nonneg hh']
    push_cast
    refine mul_le_mul hK ?_ (by positivity) (le_of_lt (Real.exp_pos _))
    have : (0 : ℝ) ≤ 5 / 12 * D 3 * (seconds dt : ℝ) ^ 3 := by positivity
    nlinarith

end

/-! ## Non-vacuity -/

/-- a state with a time -/
def Demo.scalarAt (c : Rat) (now : Int) : EState DataArray := ("time", .time now) :: Demo.scalarT c

/-- `state['time'] = state['time'] + timestep` -/
def Demo.ticks (dt : Int) : Dict DataArray → EState DataArray → EState DataArray := fun _ x =>
  match EState.clock x with
  | .ok t => Dict.set x "time" (.time (t + dt))
  | .error _ => x

theorem Demo.ticks_get (dt : Int) (d : Dict DataArray) (x : EState DataArray) {q : String} (hq : q ≠ "time") :
    Dict.get? (Demo.ticks dt d x) q = Dict.get? x q := by
  unfold Demo.ticks
  split
  · rw [Dict.get?_set_ne _ _ (Ne.symm hq)]
  · rfl

/-- in the second of two steps of a second, with updates every two seconds, the tendency of the first is used: 7, 6.3, 5.6 -/
example : Exc.test (runOver (tsCallO (dataArrayArith Demo.reg) [] [] "" false
    (abCallO (dataArrayArith Demo.reg) (updatingO false (Demo.fades (dataArrayArith Demo.reg))))) (Demo.ticks 1000000)
    1000000 2 { order := 1 } ((), { delta := 2000000 }) (Demo.scalarAt 7 0)).2.2
    (fun x => Exc.test (EState.da x "T") (fun a => a.at' (fun _ => 0) == 28 / 5) &&
      Exc.test x.clock (· == 2000000)) = true := by decide +kernel

/-- a run of any number of steps of order 2 with updates every `delta`: an error of second order in the timestep, and of first
order in `delta` -/
example (dt delta : Int) (hdt : 0 ≤ dt) (hdelta : 0 ≤ delta) (n : Nat) (hn : 1 ≤ n) {abf : ABOver DataArray}
    {sf : Unit × UFW (Dict DataArray × Dict DataArray)} {xf : EState DataArray}
    (h : runOver (tsCallO (dataArrayArith Demo.reg) [] [] "" false
      (abCallO (dataArrayArith Demo.reg) (updatingO false (Demo.fades (dataArrayArith Demo.reg))))) (Demo.ticks dt)
      dt n { order := 2 } ((), { delta := delta }) (Demo.scalarAt 7 0) = (abf, sf, .ok xf)) :
    ∃ a, Dict.get? xf "T" = some (.da a) ∧ |(a.at' (fun _ => 0) : ℝ) - 7 * Real.exp (-((n * (seconds dt : ℝ)) / 10))| ≤
      Real.exp (2 / 3 * (n * (seconds dt : ℝ))) * ((7 / 200 + 7 / 2400 * (n * (seconds dt : ℝ))) * (seconds dt : ℝ) ^ 2 +
        7 / 15 * (n * (seconds dt : ℝ)) * (seconds delta : ℝ)) := by
  have hs0 : (0 : ℝ) ≤ (seconds dt : ℝ) := seconds_nonneg hdt
  have hz : ((seconds 0 : Rat) : ℝ) = 0 := by
    rw [show seconds 0 = 0 by decide +kernel]
    norm_num
  obtain ⟨a, ha, hv⟩ := ab_run_updating_exact Demo.reg (fun _ => by norm_num) (convex_Ici 0) (Or.inr rfl)
    (Demo.fading_smooth 2) (fun j => by positivity) (L := 1 / 10) (by norm_num) false [] [] "" false (b := Demo.ticks dt)
    hdt hdelta
    (fun d x q hq => Demo.ticks_get dt d x (by rw [hq]; decide))
    (fun d x q a ha => by
      by_cases hq : q = "time"
      · refine ⟨a, ?_, rfl⟩
        unfold Demo.ticks EState.clock
        rw [← hq, ha]
        exact ha
      · exact ⟨a, by rw [Demo.ticks_get dt d x hq, ha], rfl⟩)
    (fun d x c hc => by
      unfold Demo.ticks
      rw [hc]
      unfold EState.clock
      rw [Dict.get?_set_self]) n hn () (Demo.scalarAt 7 0) (now := 0) rfl
    (fun i _ => by
      show (0 : ℝ) ≤ (seconds 0 : ℝ) + i * (seconds dt : ℝ)
      rw [hz]
      positivity)
    (by
      rw [hz]
      intro q hq
      obtain ⟨a, ha, hv⟩ := Demo.fading_starts q hq
      refine ⟨a, ?_, hv⟩
      cases hq
      exact ha)
    (fun i _ si xi r t E hr ht _ hne => by
      rw [← roundedArith_id] at hr ht
      have := Demo.fades_rhs (u := 0) (X := 0) (le_refl 0) id_rounds (fun h0 => absurd rfl h0) hne hr ht
      simpa using this) h "T" rfl
  refine ⟨a, ha, ?_⟩
  have := hv (fun _ => 0) rfl
  rw [if_neg (by norm_num), hz, zero_add] at this
  unfold Demo.fading at this
  rw [pow_zero, one_mul] at this
  refine le_trans this (le_of_eq ?_)
  push_cast
  rw [show (20 / 3 * (1 / 10) * (n * (seconds dt : ℝ)) : ℝ) = 2 / 3 * (n * (seconds dt : ℝ)) by ring]
  ring

end Verif

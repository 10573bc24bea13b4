import Verif.Props.UpdateConvergence
import Verif.Props.StageConvergence
import Verif.Props.SSPRK
/-! # SSPRungeKutta runs with components in UpdateFrequencyWrappers: property C127 -/

namespace Verif

/-- After a call that returned `r`, calls at the same time return `r` again, without calling the component: whatever the
state is by then. -/
theorem updatingO_again {σ V : Type} {implicit : Bool} {p : ProgOver σ V} {s : σ} {w : UFW (Dict V × Dict V)}
    {x x' : EState V} {dt : Int} {r : Dict V × Dict V} {now : Int} (hw : 0 < w.delta) (hx : x.clock = .ok now)
    (hx' : x'.clock = .ok now) (h : (updatingO implicit p (s, w) x dt).2 = .ok r) :
    updatingO implicit p (updatingO implicit p (s, w) x dt).1 x' dt = ((updatingO implicit p (s, w) x dt).1, .ok r) := by
  have main : ∀ (s1 : σ) (w1 : UFW (Dict V × Dict V)) (tl : Int), w1.last = some tl → now < tl + w1.delta →
      w1.cached = some r → updatingO implicit p (s1, w1) x' dt = ((s1, w1), .ok r) := by
    intro s1 w1 tl h1 h2 h3
    have hcall : UFW.call EState.clock
        (fun s x odt => if odt.isSome = implicit then p s x dt else (s, Except.error Err.typeError)) w1 s1 x'
        (if implicit then some dt else none) = (w1, s1, .ok w1.cached) := by
      unfold UFW.call
      rw [h1]
      dsimp only
      rw [hx']
      dsimp only
      rw [if_neg (by omega)]
    unfold updatingO
    dsimp only
    rw [hcall, h3]
  obtain ⟨c, hc, ⟨_, hs⟩ | ⟨tl, hl, hlt, hca, hs⟩⟩ := updatingO_ok h
  · rw [hx] at hc
    cases hc
    rw [hs]
    exact main _ _ now rfl (by show now < now + w.delta; omega) rfl
  · rw [hx] at hc
    cases hc
    rw [hs]
    exact main _ _ tl hl hlt hca

section
variable {conv : DataArray → String → Except Err DataArray}

/-- Everything about a stage: the values, the units and the time. -/
theorem euler_stage {σ : Type} {p : ProgOver σ DataArray} {ab ab' : ABOver DataArray} {s s' : σ} {x new : EState DataArray}
    {dt : Int} {diag : Dict DataArray} (ho : ab.order = 1) (hh : ab.hist = [])
    (h : eulerCallO (roundedArith id conv) p ab s x dt = (ab', s', .ok (diag, new))) :
    ab'.order = 1 ∧ ab'.hist = [] ∧ s' = (p s x dt).1 ∧ ∃ r t, (p s x dt).2 = .ok r ∧
      convertTendenciesO (roundedArith id conv) x r.1 = .ok t ∧
      ((Dict.keys r.1).Nodup → (Dict.keys new).Nodup) ∧
      (∀ c, x.clock = .ok c → new.clock = .ok c) ∧ KeepsUnits x new ∧
      (∀ q ∈ Dict.keys t, ∃ a, Dict.get? x q = some (.da a)) ∧
      ∀ q a, Dict.get? x q = some (.da a) → ∃ b, Dict.get? new q = some (.da b) ∧
        ∀ ix, b.at' ix = a.at' ix + seconds dt * tval t q ix := by
  obtain ⟨h1, h2, h3, r, t, n, hr, ht, hn, hnew⟩ := eulerCallO_ok ho hh h
  obtain ⟨k, hk, _, _, hkeys, hs⟩ := performStepO_spec hn
  have hk1 : k = 1 := hk
  subst hk1
  have hkt : Dict.keys n = Dict.keys t := hkeys
  obtain ⟨c1, c2, c3⟩ := copyUntouchedO_spec x n
  obtain ⟨_, c5, _⟩ := copyUntouchedO_spec x (copyUntouchedO x n)
  have hin : ∀ q, q ∈ Dict.keys n → Dict.get? new q = Dict.get? n q := fun q hq => by
    rw [hnew, c5 q ((c1 q).2 (Or.inr hq)), c2 q hq]
  have hout : ∀ q, q ∈ Dict.keys x → q ∉ Dict.keys n → Dict.get? new q = Dict.get? x q := fun q hqx hq => by
    rw [hnew, c5 q ((c1 q).2 (Or.inl hqx)), c3 q hq]
  have key : ∀ q a, Dict.get? x q = some (.da a) → ∃ b, Dict.get? new q = some (.da b) ∧ b.attrs = a.attrs ∧
      ∀ ix, b.at' ix = a.at' ix + seconds dt * tval t q ix := by
    intro q a ha
    by_cases hq : q ∈ Dict.keys n
    · obtain ⟨a', b, ha', hb, hat, _, hv⟩ := hs q hq
      rw [ha] at ha'
      cases ha'
      refine ⟨b, by rw [hin q hq, hb], hat, fun ix => ?_⟩
      rw [hv ix, roundedAB_id (le_refl 1) (by omega), abFormula_one]
      rfl
    · refine ⟨a, by rw [hout q (Dict.mem_keys_of_get? ha) hq, ha], rfl, fun ix => ?_⟩
      rw [tval_of_not_mem (by rw [← hkt]; exact hq), mul_zero, add_zero]
  refine ⟨h1, h2, h3, r, t, hr, ht, fun hnd => ?_, fun c hc => ?_, fun q a ha => ?_, fun q hq => ?_, fun q a ha => ?_⟩
  · rw [hnew]
    refine nodup_copyUntouchedO _ _ (nodup_copyUntouchedO _ _ ?_)
    rw [hkt, convertTendenciesO_keys ht]
    exact hnd
  · have hct : Dict.get? x "time" = some (.time c) := by
      unfold EState.clock at hc
      split at hc
      · rename_i t hx
        cases hc
        exact hx
      · cases hc
      · cases hc
    have hqn : "time" ∉ Dict.keys n := fun hq => by
      obtain ⟨x', _, hx', _⟩ := hs "time" hq
      rw [hct] at hx'
      cases hx'
    unfold EState.clock
    rw [hout _ (Dict.mem_keys_of_get? hct) hqn, hct]
  · obtain ⟨b, hb, hat, _⟩ := key q a ha
    exact ⟨b, hb, by rw [hat]⟩
  · obtain ⟨a', _, ha', _⟩ := hs q (by rw [hkt]; exact hq)
    exact ⟨a', ha'⟩
  · obtain ⟨b, hb, _, hv⟩ := key q a ha
    exact ⟨b, hb, hv⟩

/-- `add(multiply(α, x), multiply(β, z))` has the units and the time of `x`. -/
theorem weightedSum_keeps {α β : Rat} {x z out : EState DataArray} (hx : (Dict.keys x).Nodup)
    (h : weightedSum (roundedArith id conv) α β x z = .ok out) :
    (Dict.get? out "time" = Dict.get? x "time") ∧
    ∀ q a, q ≠ "time" → Dict.get? x q = some (.da a) → ∃ b, Dict.get? out q = some (.da b) ∧ b.attrs = a.attrs := by
  obtain ⟨x', hx', h⟩ := Exc.bind_ok_iff.1 h
  obtain ⟨z', hz', h⟩ := Exc.bind_ok_iff.1 h
  obtain ⟨n1, a1, b1⟩ := scaleStateO_each hx hx'
  obtain ⟨n3, a3, b3⟩ := addStatesO_each n1 h
  have hk := keys_of_each a1 fun q hq hqt => by obtain ⟨_, _, h⟩ := b1 q hq hqt; exact ⟨_, h⟩
  refine ⟨by rw [a3 _ (Or.inl rfl), a1 _ (Or.inl rfl)], fun q a hqt ha => ?_⟩
  obtain ⟨a', ha', ho1⟩ := b1 q (Dict.mem_keys_of_get? ha) hqt
  rw [ha] at ha'
  cases ha'
  obtain ⟨v, _, r, hv, _, _, ho⟩ := b3 q ((hk q).2 (Dict.mem_keys_of_get? ha)) hqt
  rw [ho1] at hv
  cases hv
  exact ⟨_, ho, rfl⟩

/-- `multiply(1 / 2, add(x, z))` has the units and the time of `x`. -/
theorem halfSum_keeps {x z out : EState DataArray} (hx : (Dict.keys x).Nodup)
    (h : halfSum (roundedArith id conv) x z = .ok out) :
    (Dict.get? out "time" = Dict.get? x "time") ∧
    ∀ q a, q ≠ "time" → Dict.get? x q = some (.da a) → ∃ b, Dict.get? out q = some (.da b) ∧ b.attrs = a.attrs := by
  obtain ⟨s, hs, h⟩ := Exc.bind_ok_iff.1 h
  obtain ⟨n1, a1, b1⟩ := addStatesO_each hx hs
  obtain ⟨n2, a2, b2⟩ := scaleStateO_each n1 h
  have hk := keys_of_each a1 fun q hq hqt => by obtain ⟨_, _, _, _, _, _, h⟩ := b1 q hq hqt; exact ⟨_, h⟩
  refine ⟨by rw [a2 _ (Or.inl rfl), a1 _ (Or.inl rfl)], fun q a hqt ha => ?_⟩
  obtain ⟨a', _, r, ha', _, _, ho⟩ := b1 q (Dict.mem_keys_of_get? ha) hqt
  rw [ha] at ha'
  cases ha'
  obtain ⟨v, hv, ho'⟩ := b2 q ((hk q).2 (Dict.mem_keys_of_get? ha)) hqt
  rw [ho] at hv
  cases hv
  exact ⟨_, ho', rfl⟩

theorem keepsUnits_of_attrs {x out : EState DataArray} {c : Int} (hc : x.clock = .ok c)
    (h : (Dict.get? out "time" = Dict.get? x "time") ∧
      ∀ q a, q ≠ "time" → Dict.get? x q = some (.da a) → ∃ b, Dict.get? out q = some (.da b) ∧ b.attrs = a.attrs) :
    KeepsUnits x out ∧ out.clock = .ok c := by
  refine ⟨fun q a ha => ?_, ?_⟩
  · by_cases hq : q = "time"
    · subst hq
      unfold EState.clock at hc
      rw [ha] at hc
      cases hc
    · obtain ⟨b, hb, hat⟩ := h.2 q a hq ha
      exact ⟨b, hb, by rw [hat]⟩
  · unfold EState.clock
    rw [h.1]
    exact hc

/-- C127: a call of an SSPRungeKutta with two or three stages whose components are in an UpdateFrequencyWrapper, with a
positive time between updates, calls them at most once, in its first stage, and returns the diagnostics and (in exact
arithmetic) the values of that stage: it takes a step of Euler's method, whatever the number of stages. -/
theorem ssprk_updating_euler (three : Bool) {σ : Type} {p : ProgOver σ DataArray} {implicit : Bool} {s : σ}
    {c : UFW (Dict DataArray × Dict DataArray)} {s' : σ × UFW (Dict DataArray × Dict DataArray)}
    (hdelta : 0 < c.delta) {ab ab' : ABOver DataArray} {x new : EState DataArray} {dt : Int} {diag : Dict DataArray} {now : Int}
    (hd : ∀ r, (updatingO implicit p (s, c) x dt).2 = .ok r → (Dict.keys r.1).Nodup)
    (ho : ab.order = 1) (hh : ab.hist = []) (hx : (Dict.keys x).Nodup) (hnow : x.clock = .ok now)
    (h : ssprkCallO (roundedArith id conv) (updatingO implicit p) three ab (s, c) x dt = (ab', s', .ok (diag, new))) :
    ab'.order = 1 ∧ ab'.hist = [] ∧ s' = (updatingO implicit p (s, c) x dt).1 ∧ (Dict.keys new).Nodup ∧
    KeepsUnits x new ∧ new.clock = .ok now ∧
    ∃ ab1 x1, eulerCallO (roundedArith id conv) (updatingO implicit p) ab (s, c) x dt = (ab1, s', .ok (diag, x1)) ∧
      ∀ q a, Dict.get? x q = some (.da a) → ∃ b b1, Dict.get? new q = some (.da b) ∧ Dict.get? x1 q = some (.da b1) ∧
        ∀ ix, b.at' ix = b1.at' ix := by
  have notTime : ∀ {q a}, Dict.get? x q = some (.da a) → q ≠ "time" := by
    intro q a ha hq
    subst hq
    unfold EState.clock at hnow
    rw [ha] at hnow
    cases hnow
  have htrans : ∀ {u v z : EState DataArray}, KeepsUnits u v → KeepsUnits v z → KeepsUnits u z := by
    intro u v z h1 h2 q a ha
    obtain ⟨a', ha', e1⟩ := h1 q a ha
    obtain ⟨a2, ha2, e2⟩ := h2 q a' ha'
    exact ⟨a2, ha2, e2.trans e1⟩
  unfold ssprkCallO at h
  cases three with
  | false =>
    simp only [Bool.false_eq_true, if_false] at h
    obtain ⟨ab1, s1, x1, d2, x2, e1, e2, hn⟩ := ssprk2O_ok h
    obtain ⟨o1, i1, w1, r, t, hr, ht, _, clk1, u1, _, v1⟩ := euler_stage ho hh e1
    obtain ⟨o2, i2, w2, r2, t2, hr2, ht2, _, _, _, _, v2⟩ := euler_stage o1 i1 e2
    rw [w1, updatingO_again hdelta hnow (clk1 _ hnow) hr] at hr2
    cases hr2
    rw [w1, updatingO_again hdelta hnow (clk1 _ hnow) hr] at w2
    rw [convertTendenciesO_units u1 ht] at ht2
    cases ht2
    obtain ⟨k1, _, hm⟩ := halfSum_each hx hn
    obtain ⟨g1, g2⟩ := keepsUnits_of_attrs hnow (halfSum_keeps hx hn)
    refine ⟨o2, i2, w2, k1, g1, g2, ab1, x1, by rw [e1, w2, ← w1], fun q a ha => ?_⟩
    obtain ⟨b1, hb1, hv1⟩ := v1 q a ha
    obtain ⟨b2, hb2, hv2⟩ := v2 q b1 hb1
    obtain ⟨a', c', b, ha', hc', hb, hv⟩ := hm q (Dict.mem_keys_of_get? ha) (notTime ha)
    rw [ha] at ha'
    cases ha'
    rw [hb2] at hc'
    cases hc'
    refine ⟨b, b1, hb, hb1, fun ix => ?_⟩
    rw [hv ix, hv2 ix, hv1 ix]
    simp only [id]
    ring
  | true =>
    simp only [if_true] at h
    obtain ⟨ab1, s1, x1, ab2, s2, d2, x15, x2, d3, x25, e1, e2, hm, e3, hn⟩ := ssprk3O_ok h
    obtain ⟨o1, i1, w1, r, t, hr, ht, _, clk1, u1, _, v1⟩ := euler_stage ho hh e1
    obtain ⟨o2, i2, w2, r2, t2, hr2, ht2, nd2, _, _, _, v2⟩ := euler_stage o1 i1 e2
    obtain ⟨o3, i3, w3, r3, t3, hr3, ht3, nd3, _, _, _, v3⟩ := euler_stage o2 i2 e3
    rw [w1, updatingO_again hdelta hnow (clk1 _ hnow) hr] at hr2
    cases hr2
    rw [w1, updatingO_again hdelta hnow (clk1 _ hnow) hr] at w2
    rw [convertTendenciesO_units u1 ht] at ht2
    cases ht2
    have hx15 := nd2 (hd _ hr)
    obtain ⟨_, _, hmv⟩ := weightedSum_each hx hx15 hm
    obtain ⟨m1, m2⟩ := keepsUnits_of_attrs hnow (weightedSum_keeps hx hm)
    rw [w2, updatingO_again hdelta hnow m2 hr] at hr3
    cases hr3
    rw [w2, updatingO_again hdelta hnow m2 hr] at w3
    rw [convertTendenciesO_units m1 ht] at ht3
    cases ht3
    obtain ⟨k1, _, hnv⟩ := weightedSum_each hx (nd3 (hd _ hr)) hn
    obtain ⟨g1, g2⟩ := keepsUnits_of_attrs hnow (weightedSum_keeps hx hn)
    refine ⟨o3, i3, w3, k1, g1, g2, ab1, x1, by rw [e1, w3, ← w1], fun q a ha => ?_⟩
    obtain ⟨b1, hb1, hv1⟩ := v1 q a ha
    obtain ⟨b2, hb2, hv2⟩ := v2 q b1 hb1
    obtain ⟨a', c', m, ha', hc', hmq, hmv⟩ := hmv q (Dict.mem_keys_of_get? ha) (notTime ha)
    rw [ha] at ha'
    cases ha'
    rw [hb2] at hc'
    cases hc'
    obtain ⟨b3, hb3, hv3⟩ := v3 q m hmq
    obtain ⟨a', c', b, ha', hc', hb, hv⟩ := hnv q (Dict.mem_keys_of_get? ha) (notTime ha)
    rw [ha] at ha'
    cases ha'
    rw [hb3] at hc'
    cases hc'
    refine ⟨b, b1, hb, hb1, fun ix => ?_⟩
    rw [hv ix, hv3 ix, hmv ix, hv2 ix, hv1 ix]
    simp only [id]
    ring

end

/-! ## Runs -/

section
variable {u : Rat} {fl : Rat → Rat} {conv : DataArray → String → Except Err DataArray} {I : (String → Nat) → Prop}
  {w : String → Rat} {Q : String → Prop} {y : Trajectory} {J : Set ℝ} {k : Nat} {D : Nat → Rat}

/-- From a good cache a wrapper gives good tendencies, and keeps a good cache. -/
theorem GoodCache.step (hJ : Convex ℝ J) (hk : 1 ≤ k) (hy : SmoothDuring I w Q y J k D) (hD : ∀ j, 0 ≤ D j)
    (hw : ∀ q, 0 ≤ w q) {L e T E : Rat} {dt delta : Int} (hdelta : 0 ≤ delta) {σ : Type}
    {p : ProgOver σ DataArray} {implicit : Bool} {s : σ} {c : UFW (Dict DataArray × Dict DataArray)} {x : EState DataArray}
    {τ : ℝ} (hτ : τ ∈ J) (hc : GoodCache I w Q y J (roundedArith fl conv) u L e T delta τ E c x)
    (hp : ∀ r t, (p s x dt).2 = .ok r → convertTendenciesO (roundedArith fl conv) x r.1 = .ok t →
      (u ≠ 0 → TendSized I w T t) ∧ NearDerivative I w Q y (L * E + e) τ t) {r : Dict DataArray × Dict DataArray}
    {t : Dict DataArray} (hr : (updatingO implicit p (s, c) x dt).2 = .ok r)
    (ht : convertTendenciesO (roundedArith fl conv) x r.1 = .ok t) :
    ((u ≠ 0 → TendSized I w T t) ∧ NearDerivative I w Q y (L * E + (e + D 2 * seconds delta)) τ t) ∧
    ∀ x' now later, 0 ≤ later → x.clock = .ok now → KeepsUnits x x' → x'.clock = .ok (now + later) →
      GoodCache I w Q y J (roundedArith fl conv) u L e T delta (τ + (seconds later : ℝ)) E
        (updatingO implicit p (s, c) x dt).1.2 x' := by
  have hsd : (0 : ℝ) ≤ (seconds delta : ℝ) := seconds_nonneg hdelta
  have hDd : 0 ≤ D 2 * seconds delta := mul_nonneg (hD 2) (by exact_mod_cast hsd)
  obtain ⟨hdl, ⟨now, hnow, hτn⟩, hcache⟩ := hc
  obtain ⟨now', hnow', hcase⟩ := updatingO_ok hr
  rw [hnow] at hnow'
  cases hnow'
  have hnext : ∀ k, τ + (seconds k : ℝ) = (seconds (now + k) : ℝ) := fun k => by rw [seconds_add, ← hτn]
  have hin : (seconds now : ℝ) ∈ J := by
    rw [← hτn]
    exact hτ
  rcases hcase with ⟨hnew, hs'⟩ | ⟨tl, hl, hlt, hca, hs'⟩
  · obtain ⟨hTt, hn⟩ := hp r t hnew ht
    refine ⟨⟨hTt, hn.mono hw (by linarith)⟩, fun x' now1 later hlater h1 hz1 hz2 => ?_⟩
    have hsl : (0 : ℝ) ≤ (seconds later : ℝ) := seconds_nonneg hlater
    rw [hnow] at h1
    cases h1
    rw [hs']
    refine ⟨hdl, ⟨now + later, hz2, hnext later⟩, Or.inr ⟨r, now, t, rfl, rfl, hin, ?_, convertTendenciesO_units hz1 ht, hTt, ?_⟩⟩
    · rw [← hτn]
      linarith
    · rw [← hτn]
      exact hn
  · rcases hcache with hcn | ⟨r', tl', t', g1, g2, g3, g4, g5, g6, g7⟩
    · obtain ⟨h0, h1⟩ := hcn tl hl
      rw [hτn, seconds_le_iff] at h1
      omega
    · rw [hl] at g2
      cases g2
      rw [hca] at g1
      cases g1
      rw [ht] at g5
      cases g5
      have hdist : |(seconds now : ℝ) - (seconds tl : ℝ)| ≤ (seconds delta : Rat) := by
        rw [← hτn, abs_of_nonneg (by linarith), hτn]
        have := seconds_le (show now ≤ tl + delta by omega)
        rw [seconds_add] at this
        linarith
      refine ⟨⟨g6, ?_⟩, fun x' now1 later hlater h1 hz1 hz2 => ?_⟩
      · rw [hτn]
        have := g7.later hJ hk hy hD hw g3 hin hdist
        rwa [add_assoc] at this
      · have hsl : (0 : ℝ) ≤ (seconds later : ℝ) := seconds_nonneg hlater
        rw [hnow] at h1
        cases h1
        rw [hs']
        refine ⟨hdl, ⟨now + later, hz2, hnext later⟩, Or.inr ⟨r, tl, t, hca, hl, g3, ?_, convertTendenciesO_units hz1 ht, g6, g7⟩⟩
        linarith

theorem GoodCache.mono (hw : ∀ q, 0 ≤ w q) {A : Arith DataArray} {L e T E E' : Rat} (hL : 0 ≤ L) (hE : E ≤ E') {delta : Int}
    {τ : ℝ} {c : UFW (Dict DataArray × Dict DataArray)} {x : EState DataArray}
    (h : GoodCache I w Q y J A u L e T delta τ E c x) : GoodCache I w Q y J A u L e T delta τ E' c x := by
  obtain ⟨h1, h2, h3⟩ := h
  refine ⟨h1, h2, ?_⟩
  rcases h3 with h3 | ⟨r, tl, t, g1, g2, g3, g4, g5, g6, g7⟩
  · exact Or.inl h3
  · refine Or.inr ⟨r, tl, t, g1, g2, g3, g4, g5, g6, g7.mono hw ?_⟩
    have := mul_le_mul_of_nonneg_left hE hL
    linarith

theorem ssprk_updating_runs (three : Bool) (hw : ∀ q, 0 ≤ w q) (hJ : Convex ℝ J) (hy : SmoothDuring I w Q y J 1 D)
    (hD : ∀ j, 0 ≤ D j) {L : Rat} (hL : 0 ≤ L) {σ : Type} {p : ProgOver σ DataArray} (hd : GivesDicts p)
    (implicit : Bool) (inProps outProps : PropDict) (inst : String) (tid : Bool)
    {b : Dict DataArray → EState DataArray → EState DataArray} {dt delta : Int} (hdt : 0 ≤ dt) (hdelta : 0 < delta)
    (hb : ∀ d x q, Q q → Dict.get? (b d x) q = Dict.get? x q) (hbd : BetweenDicts b) (hbu : ∀ d x, KeepsUnits x (b d x))
    (hbt : ∀ d x c, EState.clock x = .ok c → EState.clock (b d x) = .ok (c + dt)) :
    ∀ (n : Nat) (E : Rat) (ab : ABOver DataArray) (s : σ) (c : UFW (Dict DataArray × Dict DataArray)) (x : EState DataArray)
      (τ : ℝ) (abf : ABOver DataArray) (sf : σ × UFW (Dict DataArray × Dict DataArray)) (xf : EState DataArray),
      0 ≤ E → ab.order = 1 → ab.hist = [] → (∀ i ≤ n, τ + i * (seconds dt : ℝ) ∈ J) → (Dict.keys x).Nodup →
      NearSolution I w Q y E τ x → GoodCache I w Q y J (roundedArith id conv) 0 L 0 0 delta τ E c x →
      (∀ r, c.cached = some r → (Dict.keys r.1).Nodup) →
      (∀ i < n, ∀ si xi r t E, (p si xi dt).2 = .ok r → convertTendenciesO (roundedArith id conv) xi r.1 = .ok t →
        0 ≤ E → NearSolution I w Q y E (τ + i * (seconds dt : ℝ)) xi →
          NearDerivative I w Q y (L * E) (τ + i * (seconds dt : ℝ)) t) →
      runOver (tsCallO (roundedArith id conv) inProps outProps inst tid
        (sspCallO (roundedArith id conv) (updatingO implicit p) three)) b dt n ab (s, c) x = (abf, sf, .ok xf) →
      NearSolution I w Q y ((1 + seconds dt * L) ^ n * (E + n * (seconds dt * (D 2 * seconds delta) +
        D 2 / 2 * seconds dt ^ 2))) (τ + n * (seconds dt : ℝ)) xf := by
  have hh : (0 : ℝ) ≤ (seconds dt : ℝ) := seconds_nonneg hdt
  have hh' : 0 ≤ seconds dt := by exact_mod_cast hh
  have hd0 : 0 ≤ seconds delta := by
    have := seconds_nonneg (le_of_lt hdelta)
    exact_mod_cast this
  have hD2 := hD 2
  intro n
  induction n with
  | zero =>
    intro E ab s c x τ abf sf xf _ _ _ _ _ hx _ _ _ h
    unfold runOver at h
    simp only [Prod.mk.injEq, Except.ok.injEq] at h
    rw [← h.2.2]
    simpa using hx
  | succ n ih =>
    intro E ab s c x τ abf sf xf hE ho hhist hτ hx hxn hgc hcnd hrhs h
    unfold runOver at h
    rcases hc : tsCallO (roundedArith id conv) inProps outProps inst tid
      (sspCallO (roundedArith id conv) (updatingO implicit p) three) ab (s, c) x dt with ⟨ab1, s1, st1, er | ⟨d1, new⟩⟩
    · rw [hc] at h; cases h
    rw [hc] at h
    dsimp only at h
    obtain ⟨d, m, hk, hnew⟩ := tsCallO_keeps hc
    unfold sspCallO at hk
    simp only [Prod.mk.injEq] at hk
    obtain ⟨a1, a2, a3, a4⟩ := hk
    subst a3
    have h0 := hτ 0 (by omega)
    have h1 := hτ 1 (by omega)
    rw [Nat.cast_zero, zero_mul, add_zero] at h0
    rw [Nat.cast_one, one_mul] at h1
    obtain ⟨now, hnow, hτn⟩ := hgc.2.1
    have hnd : ∀ r, (updatingO implicit p (s, c) x dt).2 = .ok r → (Dict.keys r.1).Nodup := by
      intro r hr
      obtain ⟨_, _, ⟨hnew, _⟩ | ⟨_, _, _, hca, _⟩⟩ := updatingO_ok hr
      · exact hd _ _ _ _ hnew
      · exact hcnd r hca
    obtain ⟨o1, i1, hs1, k1, hun, hclk, abe, x1, he, hval⟩ := ssprk_updating_euler three
      (by rw [hgc.1]; exact hdelta) hnd ho hhist hx hnow (ab' := ab1) (s' := s1) (diag := d) (new := m)
      (by rw [← a1, ← a2, ← a4])
    obtain ⟨_, _, _, r, t, hr, ht, _, _, _, _, hv1⟩ := euler_stage ho hhist he
    obtain ⟨⟨_, hnear⟩, hcn⟩ := hgc.step hJ (le_refl 1) hy hD hw (le_of_lt hdelta) h0
      (fun r t hr ht => ⟨fun h0 => absurd rfl h0, by
        have := hrhs 0 (by omega) s x r t E hr ht hE (by simpa using hxn)
        simpa using this⟩) hr ht
    rw [zero_add] at hnear
    -- near the solution after the step
    have hstep : NearSolution I w Q y ((1 + seconds dt * L) * E + (seconds dt * (D 2 * seconds delta) +
        D 2 / 2 * seconds dt ^ 2)) (τ + (seconds dt : ℝ)) m := by
      intro q hq
      obtain ⟨a, ha, hxa⟩ := hxn q hq
      obtain ⟨bq, b1, hbq, hb1, hbv⟩ := hval q a ha
      obtain ⟨b1', hb1', hv⟩ := hv1 q a ha
      rw [hb1] at hb1'
      cases hb1'
      refine ⟨bq, hbq, fun ix hix => ?_⟩
      rw [hbv ix, hv ix]
      have hvn := (hnear q hq).2 ix hix
      have hxi := hxa ix hix
      have hb2 : ∀ z ∈ J, |y 2 q ix z| ≤ (D 2 : ℝ) * w q := fun z hz => by
        have := hy.bound 2 (by omega) q hq ix hix z hz
        exact_mod_cast this
      have tr := taylor_within hJ (n := 2) (d := fun j => y j q ix) h0 h1
        (fun j hj z hz => hy.deriv j (by omega) q hq ix hix z hz) hb2
      have hts : taylorSum (fun k => y k q ix τ) 2 (seconds dt : ℝ) = y 0 q ix τ + (seconds dt : ℝ) * y 1 q ix τ := by
        unfold taylorSum
        simp only [Finset.sum_range_succ, Finset.sum_range_zero, Nat.factorial]
        norm_num
        ring
      rw [hts] at tr
      norm_num at tr
      generalize tval t q ix = v at *
      have e1 : ((a.at' ix + seconds dt * v : Rat) : ℝ) - y 0 q ix (τ + (seconds dt : ℝ)) =
          ((a.at' ix : ℝ) - y 0 q ix τ) + (seconds dt : ℝ) * ((v : ℝ) - y 1 q ix τ) -
          (y 0 q ix (τ + (seconds dt : ℝ)) - (y 0 q ix τ + (seconds dt : ℝ) * y 1 q ix τ)) := by
        push_cast
        ring
      rw [e1]
      have j1 := mul_le_mul_of_nonneg_left hvn hh
      refine le_trans (abs_sub _ _) (le_trans (add_le_add (le_trans (abs_add_le _ _) (add_le_add hxi
        (le_trans (le_of_eq (by rw [abs_mul, abs_of_nonneg hh])) j1))) tr) (le_of_eq ?_))
      push_cast
      ring
    have hKE : E ≤ (1 + seconds dt * L) * E := by
      have := mul_nonneg (mul_nonneg hh' hL) hE
      linarith
    have hg0 : 0 ≤ seconds dt * (D 2 * seconds delta) + D 2 / 2 * seconds dt ^ 2 := by positivity
    generalize hEn : (1 + seconds dt * L) * E + (seconds dt * (D 2 * seconds delta) + D 2 / 2 * seconds dt ^ 2) = E1 at *
    have hE1 : E ≤ E1 := by linarith
    have hforw : ∀ i : Nat, τ + (seconds dt : ℝ) + i * (seconds dt : ℝ) = τ + (i + 1 : ℕ) * (seconds dt : ℝ) := by
      intro i
      push_cast
      ring
    -- the new state, as TendencyStepper returns it
    have hget : ∀ {q}, q ∈ Dict.keys m → Dict.get? new q = Dict.get? m q := fun hq => by
      rw [hnew, (copyUntouchedO_spec _ _).2.1 _ hq]
    have hclk' : EState.clock new = .ok now := by
      have hm : Dict.get? m "time" = some (.time now) := by
        unfold EState.clock at hclk
        split at hclk
        · rename_i t hx
          cases hclk
          exact hx
        · cases hclk
        · cases hclk
      unfold EState.clock
      rw [hget (Dict.mem_keys_of_get? hm), hm]
    have hun' : KeepsUnits x (b d1 new) := by
      intro q a ha
      obtain ⟨a', ha', e1⟩ := hun q a ha
      obtain ⟨a2, ha2, e2⟩ := hbu d1 new q a' (by rw [hget (Dict.mem_keys_of_get? ha'), ha'])
      exact ⟨a2, ha2, e2.trans e1⟩
    obtain ⟨sn, cn⟩ := s1
    have hcn' := hcn (b d1 new) now dt hdt hnow hun' (hbt _ _ _ hclk')
    rw [← hs1] at hcn'
    have hres := ih E1 ab1 sn cn (b d1 new) (τ + (seconds dt : ℝ)) abf sf xf (le_trans hE hE1) o1 i1
      (fun i hi => by rw [hforw]; exact hτ (i + 1) (by omega))
      (hbd d1 new (by rw [hnew]; exact nodup_copyUntouchedO _ _ k1))
      (fun q hq => by
        obtain ⟨a, ha, hv⟩ := hstep q hq
        exact ⟨a, by rw [hb _ _ q hq, hget (Dict.mem_keys_of_get? ha), ha], hv⟩)
      (hcn'.mono hw hL hE1)
      (fun r' hr' => by
        obtain ⟨_, _, ⟨_, hs2⟩ | ⟨_, _, _, hca, hs2⟩⟩ := updatingO_ok hr
        · rw [hs2] at hs1
          cases hs1
          cases hr'
          exact hnd _ hr
        · rw [hs2] at hs1
          cases hs1
          exact hcnd _ hr')
      (fun i hi si xi r t E => by
        rw [hforw]
        exact hrhs (i + 1) (by omega) si xi r t E) h
    rw [hforw] at hres
    refine hres.mono hw ?_
    rw [← hEn]
    generalize seconds dt * (D 2 * seconds delta) + D 2 / 2 * seconds dt ^ 2 = g at *
    have hK : 1 ≤ 1 + seconds dt * L := by
      have := mul_nonneg hh' hL
      linarith
    generalize 1 + seconds dt * L = K at *
    rw [pow_succ, mul_assoc]
    refine mul_le_mul_of_nonneg_left ?_ (pow_nonneg (le_trans zero_le_one hK) n)
    have : 0 ≤ (K - 1) * ((n + 1) * g) := mul_nonneg (by linarith) (by positivity)
    push_cast
    nlinarith

/-- C127: a run of `n` steps of an SSPRungeKutta with a component in a new UpdateFrequencyWrapper with the positive time
`delta` between updates, in exact arithmetic over the time `n dt`: an error of first order in the timestep and in the time
between updates, however many steps are taken. -/
theorem ssprk_run_updating (three : Bool) (R : Registry) (hw : ∀ q, 0 ≤ w q) (hJ : Convex ℝ J)
    (hy : SmoothDuring I w Q y J 1 D) (hD : ∀ j, 0 ≤ D j) {L : Rat} (hL : 0 ≤ L) {σ : Type} {p : ProgOver σ DataArray}
    (hd : GivesDicts p) (implicit : Bool) (inProps outProps : PropDict) (inst : String) (tid : Bool)
    {b : Dict DataArray → EState DataArray → EState DataArray} {dt delta : Int} (hdt : 0 ≤ dt) (hdelta : 0 < delta)
    (hb : ∀ d x q, Q q → Dict.get? (b d x) q = Dict.get? x q) (hbd : BetweenDicts b) (hbu : ∀ d x, KeepsUnits x (b d x))
    (hbt : ∀ d x c, EState.clock x = .ok c → EState.clock (b d x) = .ok (c + dt)) (n : Nat) (s : σ)
    (x : EState DataArray) (hxd : (Dict.keys x).Nodup) {now : Int} (hnow : x.clock = .ok now) {abf : ABOver DataArray}
    {sf : σ × UFW (Dict DataArray × Dict DataArray)} {xf : EState DataArray}
    (htimes : ∀ i ≤ n, (seconds now : ℝ) + i * (seconds dt : ℝ) ∈ J) (hx : NearSolution I w Q y 0 (seconds now) x)
    (hrhs : ∀ i < n, ∀ si xi r t E, (p si xi dt).2 = .ok r → convertTendenciesO (dataArrayArith R) xi r.1 = .ok t →
      0 ≤ E → NearSolution I w Q y E ((seconds now : ℝ) + i * (seconds dt : ℝ)) xi →
        NearDerivative I w Q y (L * E) ((seconds now : ℝ) + i * (seconds dt : ℝ)) t)
    (h : runOver (tsCallO (dataArrayArith R) inProps outProps inst tid
        (sspCallO (dataArrayArith R) (updatingO implicit p) three)) b dt n { order := 1 }
          (s, { delta := delta }) x = (abf, sf, .ok xf)) :
    ∀ q, Q q → ∃ a, Dict.get? xf q = some (.da a) ∧ ∀ ix, I ix →
      |(a.at' ix : ℝ) - y 0 q ix ((seconds now : ℝ) + n * (seconds dt : ℝ))| ≤
        Real.exp (L * (n * (seconds dt : ℝ))) *
        (D 2 * (n * (seconds dt : ℝ)) * ((seconds dt : ℝ) / 2 + (seconds delta : ℝ))) * w q := by
  rw [← roundedArith_id R] at h hrhs
  have main := ssprk_updating_runs three hw hJ hy hD hL hd implicit inProps outProps inst tid hdt hdelta hb hbd hbu hbt n 0
    { order := 1 } s { delta := delta } x (seconds now) abf sf xf (le_refl 0) rfl rfl htimes hxd hx
    ⟨rfl, ⟨now, hnow, rfl⟩, Or.inl fun tl h => (by cases h)⟩ (fun r hr => by cases hr) hrhs h
  have hh : (0 : ℝ) ≤ (seconds dt : ℝ) := seconds_nonneg hdt
  have hd0 : (0 : ℝ) ≤ (seconds delta : ℝ) := seconds_nonneg (le_of_lt hdelta)
  have hL' : (0 : ℝ) ≤ L := by exact_mod_cast hL
  have hD2 : (0 : ℝ) ≤ D 2 := by exact_mod_cast hD 2
  intro q hq
  obtain ⟨a, ha, hv⟩ := main q hq
  refine ⟨a, ha, fun ix hix => le_trans (hv ix hix) ?_⟩
  have hwq : (0 : ℝ) ≤ w q := by exact_mod_cast hw q
  refine mul_le_mul_of_nonneg_right ?_ hwq
  have hK : (1 + (seconds dt : ℝ) * L) ^ n ≤ Real.exp (L * (n * (seconds dt : ℝ))) := by
    have h1 : 1 + (seconds dt : ℝ) * L ≤ Real.exp ((seconds dt : ℝ) * L) := by
      have := Real.add_one_le_exp ((seconds dt : ℝ) * L)
      linarith
    refine le_trans (pow_le_pow_left₀ (by positivity) h1 n) (le_of_eq ?_)
    rw [← Real.exp_nat_mul]
    congr 1
    ring
  push_cast
  refine mul_le_mul hK (le_of_eq (by ring)) (by positivity) (le_of_lt (Real.exp_pos _))

end

theorem Demo.ticks_dicts (dt : Int) : BetweenDicts (Demo.ticks dt) := by
  intro d x hx
  unfold Demo.ticks
  split
  · exact Dict.nodup_keys_set hx _ _
  · exact hx

/-- one step of 1 s with three stages from 7: the component called once, giving the Euler step 7 - 0.7; without the wrapper
the three stages give 7 (1 - 1/10 + 1/200 - 1/6000) -/
example : Exc.test (sspCallO (dataArrayArith Demo.reg) (updatingO false (Demo.fades (dataArrayArith Demo.reg))) true
      { order := 1 } ((), { delta := 1 }) (Demo.scalarAt 7 0) 1000000).2.2.2
      (fun r => Exc.test (EState.da r.2 "T") (fun a => a.at' (fun _ => 0) == 63 / 10)) = true ∧
    Exc.test (sspCallO (dataArrayArith Demo.reg) (Demo.fades (dataArrayArith Demo.reg)) true
      { order := 1 } () (Demo.scalarAt 7 0) 1000000).2.2.2
      (fun r => Exc.test (EState.da r.2 "T") (fun a => a.at' (fun _ => 0) == 7 * (1 - 1 / 10 + 1 / 200 - 1 / 6000))) = true := by
  decide +kernel

/-- a run of any number of steps with updates every `delta`: an error of first order in both -/
example (three : Bool) (dt delta : Int) (hdt : 0 ≤ dt) (hdelta : 0 < delta) (n : Nat) {abf : ABOver DataArray}
    {sf : Unit × UFW (Dict DataArray × Dict DataArray)} {xf : EState DataArray}
    (h : runOver (tsCallO (dataArrayArith Demo.reg) [] [] "" false
      (sspCallO (dataArrayArith Demo.reg) (updatingO false (Demo.fades (dataArrayArith Demo.reg))) three)) (Demo.ticks dt)
      dt n { order := 1 } ((), { delta := delta }) (Demo.scalarAt 7 0) = (abf, sf, .ok xf)) :
    ∃ a, Dict.get? xf "T" = some (.da a) ∧ |(a.at' (fun _ => 0) : ℝ) - 7 * Real.exp (-((n * (seconds dt : ℝ)) / 10))| ≤
      Real.exp (1 / 10 * (n * (seconds dt : ℝ))) * (7 / 100 * (n * (seconds dt : ℝ)) *
        ((seconds dt : ℝ) / 2 + (seconds delta : ℝ))) := by
  have hs0 : (0 : ℝ) ≤ (seconds dt : ℝ) := seconds_nonneg hdt
  have hz : ((seconds 0 : Rat) : ℝ) = 0 := by
    rw [show seconds 0 = 0 by decide +kernel]
    norm_num
  obtain ⟨a, ha, hv⟩ := ssprk_run_updating three Demo.reg (fun _ => by norm_num) (convex_Ici 0)
    (Demo.fading_smooth 1) (fun j => by positivity) (L := 1 / 10) (by norm_num) (Demo.fades_dicts _)
    false [] [] "" false (b := Demo.ticks dt) hdt hdelta
    (fun d x q hq => Demo.ticks_get dt d x (by rw [hq]; decide)) (Demo.ticks_dicts dt)
    (fun d x q a ha => by
      by_cases hq : q = "time"
      · refine ⟨a, ?_, rfl⟩
        unfold Demo.ticks EState.clock
        rw [← hq, ha]
        exact ha
      · exact ⟨a, by rw [Demo.ticks_get dt d x hq, ha], rfl⟩)
    (fun d x c hc => by
      unfold Demo.ticks
      rw [hc]
      unfold EState.clock
      rw [Dict.get?_set_self]) n () (Demo.scalarAt 7 0) (by decide) (now := 0) rfl
    (fun i _ => by
      show (0 : ℝ) ≤ (seconds 0 : ℝ) + i * (seconds dt : ℝ)
      rw [hz]
      positivity)
    (by
      rw [hz]
      intro q hq
      obtain ⟨a, ha, hv⟩ := Demo.fading_starts q hq
      refine ⟨a, ?_, hv⟩
      cases hq
      exact ha)
    (fun i _ si xi r t E hr ht _ hne => by
      rw [← roundedArith_id] at hr ht
      have := Demo.fades_rhs (u := 0) (X := 0) (le_refl 0) id_rounds (fun h0 => absurd rfl h0) hne hr ht
      simpa using this) h "T" rfl
  refine ⟨a, ha, ?_⟩
  have := hv (fun _ => 0) rfl
  rw [hz, zero_add] at this
  unfold Demo.fading at this
  rw [pow_zero, one_mul] at this
  refine le_trans this (le_of_eq ?_)
  push_cast
  ring

end Verif

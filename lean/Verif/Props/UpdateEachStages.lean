import Verif.Props.UpdateEach
import Verif.Props.TimeStages
/-! # SSPRungeKutta runs with components that are updated at different frequencies: property C130 -/

namespace Verif

theorem addIntoO_nodup {V : Type} {A : Arith V} : ∀ (l acc : Dict V) {acc' : Dict V}, addIntoO A l acc = .ok acc' →
    (Dict.keys acc).Nodup → (Dict.keys acc').Nodup := by
  intro l
  induction l with
  | nil =>
    intro acc acc' h hn
    unfold addIntoO at h
    cases h
    exact hn
  | cons kv rest ih =>
    intro acc acc' h hn
    unfold addIntoO at h
    split at h
    · exact ih _ h (Dict.nodup_keys_set hn _ _)
    · split at h
      · obtain ⟨v', _, h⟩ := Exc.bind_ok_iff.1 h
        obtain ⟨r, _, h⟩ := Exc.bind_ok_iff.1 h
        exact ih _ h (Dict.nodup_keys_set hn _ _)
      · cases h

theorem compositeLoopO_nodup {σ V : Type} {A : Arith V} : ∀ (fs : List (σ → σ × Except Err (Dict V × Dict V))) (s : σ)
    (t d : Dict V) {r : Dict V × Dict V}, (compositeLoopO A fs s t d).2 = .ok r → (Dict.keys t).Nodup →
    (Dict.keys r.1).Nodup := by
  intro fs
  induction fs with
  | nil =>
    intro s t d r h hn
    unfold compositeLoopO at h
    cases h
    exact hn
  | cons f fs ih =>
    intro s t d r h hn
    unfold compositeLoopO at h
    split at h
    · cases h
    · split at h
      · cases h
      · rename_i ha
        exact ih _ _ _ h (addIntoO_nodup _ _ ha hn)

/-- A composite returns a dict whatever its components return. -/
theorem compositeO_dicts {σ V : Type} (A : Arith V) (cs : List (ProgOver σ V)) : GivesDicts (compositeO A cs) :=
  fun _ _ _ _ hr => compositeLoopO_nodup _ _ _ _ hr List.nodup_nil

section
variable {I : (String → Nat) → Prop} {w : String → Rat} {Q : String → Prop} {J : Set ℝ} {σ ι : Type} [DecidableEq ι]
  {R : Registry} {implicit : ι → Bool} {p : ι → ProgOver σ DataArray} {deltas : ι → Int} {Ls : ι → Rat}
  {Qs : ι → String → Prop} {ys : ι → Trajectory} {Ds : ι → Nat → Rat}

/-- Every wrapper is called once in a call of the composite. -/
theorem loop_slots {x : EState DataArray} {dt : Int} : ∀ (is : List ι), is.Nodup →
    ∀ (sc sc' : σ × (ι → UFW (Dict DataArray × Dict DataArray))) (t0 d0 : Dict DataArray) {r : Dict DataArray × Dict DataArray},
      compositeLoopO (dataArrayArith R) (is.map fun i s => updatingSlot implicit p i s x dt) sc t0 d0 = (sc', .ok r) →
      (∀ i, i ∉ is → sc'.2 i = sc.2 i) ∧
      ∀ i ∈ is, ∃ s r, (updatingO (implicit i) (p i) (s, sc.2 i) x dt).2 = .ok r ∧
        sc'.2 i = (updatingO (implicit i) (p i) (s, sc.2 i) x dt).1.2 := by
  intro is
  induction is with
  | nil =>
    intro _ sc sc' t0 d0 r h
    rw [List.map_nil] at h
    unfold compositeLoopO at h
    cases h
    exact ⟨fun _ _ => rfl, fun i hi => by cases hi⟩
  | cons i is ih =>
    intro hnd sc sc' t0 d0 r h
    rw [List.nodup_cons] at hnd
    rw [List.map_cons] at h
    unfold compositeLoopO at h
    dsimp only at h
    cases hr : (updatingSlot implicit p i sc x dt).2 with
    | error e => rw [hr] at h; cases h
    | ok ri =>
    rw [hr] at h
    dsimp only at h
    cases ha : addIntoO (dataArrayArith R) ri.1 t0 with
    | error e => rw [ha] at h; cases h
    | ok t1 =>
    rw [ha] at h
    dsimp only at h
    have hother : ∀ j, j ≠ i → (updatingSlot implicit p i sc x dt).1.2 j = sc.2 j := fun j hj =>
      Function.update_of_ne hj _ _
    have hself : (updatingSlot implicit p i sc x dt).1.2 i = (updatingO (implicit i) (p i) (sc.1, sc.2 i) x dt).1.2 :=
      Function.update_self _ _ _
    obtain ⟨b1, b2⟩ := ih hnd.2 _ _ _ _ h
    refine ⟨fun j hj => ?_, fun j hj => ?_⟩
    · rw [List.mem_cons, not_or] at hj
      rw [b1 j hj.2, hother j hj.1]
    · by_cases e : j = i
      · subst e
        exact ⟨sc.1, ri, hr, by rw [b1 j hnd.1, hself]⟩
      · obtain ⟨s, r, c1, c2⟩ := b2 j ((List.mem_cons.1 hj).resolve_left e)
        rw [hother j e] at c1 c2
        exact ⟨s, r, c1, c2⟩

/-- Before its time between updates is over, a wrapper keeps its memory. -/
theorem updatingO_waits {implicit : Bool} {p : ProgOver σ DataArray} {s : σ} {c : UFW (Dict DataArray × Dict DataArray)}
    {x : EState DataArray} {dt now tl : Int} (hnow : x.clock = .ok now) (hl : c.last = some tl) (hlt : now < tl + c.delta) :
    (updatingO implicit p (s, c) x dt).1 = (s, c) := by
  unfold updatingO UFW.call
  simp only [hl, hnow]
  rw [if_neg (by omega)]

/-- What the wrappers remember after a stage at the time `now`, from the beginning of which to the end the state is within
`E` of the solution: those with time between updates will not update before the next step. -/
def HeldSlots (R : Registry) (I : (String → Nat) → Prop) (w : String → Rat) (Q : String → Prop) (J : Set ℝ)
    (deltas : ι → Int) (Ls : ι → Rat) (Qs : ι → String → Prop) (ys : ι → Trajectory) (now : Int) (E : Rat)
    (x : EState DataArray) (sc : σ × (ι → UFW (Dict DataArray × Dict DataArray))) : Prop :=
  ∀ i, (sc.2 i).delta = deltas i ∧
    (∃ tl, (sc.2 i).last = some tl ∧ tl ≤ now ∧ (0 < deltas i → now < tl + deltas i)) ∧
    (∀ r, (sc.2 i).cached = some r → ReturnsOf R Q (Qs i) r.1) ∧
    (0 < deltas i → ∀ x' later, 0 ≤ later → KeepsUnits x x' → x'.clock = .ok (now + later) →
      GoodSlot R I w Q J deltas Ls Qs ys i ((seconds now : ℝ) + (seconds later : ℝ)) E (sc.2 i) x')

omit [DecidableEq ι] in
theorem HeldSlots.good (hw : ∀ q, 0 ≤ w q) (hL : ∀ i, 0 ≤ Ls i) (hdelta : ∀ i, 0 ≤ deltas i) {now later : Int}
    (hlater : 0 ≤ later) {E F : Rat} (hE : E ≤ F)
    {x x' : EState DataArray} {sc : σ × (ι → UFW (Dict DataArray × Dict DataArray))}
    (h : HeldSlots R I w Q J deltas Ls Qs ys now E x sc) (hu : KeepsUnits x x') (hc : x'.clock = .ok (now + later)) (i : ι) :
    GoodSlot R I w Q J deltas Ls Qs ys i ((seconds now : ℝ) + (seconds later : ℝ)) F (sc.2 i) x' := by
  obtain ⟨h1, ⟨tl, h2, h3, _⟩, h4, h5⟩ := h i
  by_cases hd : 0 < deltas i
  · exact (h5 hd x' later hlater hu hc).mono hw hL hE
  · refine ⟨⟨h1, ⟨now + later, hc, by rw [seconds_add]⟩, Or.inl fun t ht => ?_⟩, h4⟩
    rw [h2] at ht
    cases ht
    have := hdelta i
    refine ⟨by omega, ?_⟩
    rw [← seconds_add]
    exact seconds_le (by omega)

omit [DecidableEq ι] in
private theorem GoodSlot.past {i : ι} {now : Int} {E : Rat} {c : UFW (Dict DataArray × Dict DataArray)} {x : EState DataArray}
    (h : GoodSlot R I w Q J deltas Ls Qs ys i (seconds now) E c x) {tl : Int} (hl : c.last = some tl) : tl ≤ now := by
  obtain ⟨⟨_, _, h | ⟨_, tl', _, _, g2, _, g4, _⟩⟩, _⟩ := h
  · exact seconds_le_iff.1 (h tl hl).2
  · rw [hl] at g2
    cases g2
    exact seconds_le_iff.1 g4

private theorem units_refl (x : EState DataArray) : KeepsUnits x x := fun _ a ha => ⟨a, ha, rfl⟩

variable [Fintype ι] {y : Trajectory} {D : Nat → Rat}

omit [Fintype ι] in
private theorem composite_slots {x : EState DataArray} {dt : Int} {is : List ι} (his : is.Nodup) (hall : ∀ i, i ∈ is)
    {sc : σ × (ι → UFW (Dict DataArray × Dict DataArray))} {r : Dict DataArray × Dict DataArray}
    (hr : (compositeO (dataArrayArith R) (is.map (updatingSlot implicit p)) sc x dt).2 = .ok r) (i : ι) :
    ∃ s r, (updatingO (implicit i) (p i) (s, sc.2 i) x dt).2 = .ok r ∧
      (compositeO (dataArrayArith R) (is.map (updatingSlot implicit p)) sc x dt).1.2 i =
        (updatingO (implicit i) (p i) (s, sc.2 i) x dt).1.2 := by
  have hc : compositeO (dataArrayArith R) (is.map (updatingSlot implicit p)) sc x dt =
      compositeLoopO (dataArrayArith R) (is.map fun i s => updatingSlot implicit p i s x dt) sc [] [] := by
    unfold compositeO
    rw [List.map_map]
    rfl
  rw [hc] at hr ⊢
  exact (loop_slots is his sc _ [] [] (Prod.ext rfl hr)).2 i (hall i)

/-- The first stage of a step. -/
theorem PartsOf.first {dt : Int} (hS : PartsOf R I w Q J y p dt Ls Qs ys Ds) (hR : R.Faithful)
    (hs : ∀ un b, R.parse (un ++ " s^-1") = some b → b.offset = 0) (hw : ∀ q, 0 ≤ w q) (hJ : Convex ℝ J)
    (hdelta : ∀ i, 0 ≤ deltas i) {x : EState DataArray} {now : Int} (hnow : x.clock = .ok now)
    (hτ : (seconds now : ℝ) ∈ J) {E : Rat} (hE : 0 ≤ E) (hx : NearSolution I w Q y E (seconds now) x)
    {is : List ι} (his : is.Nodup) (hall : ∀ i, i ∈ is) {sc : σ × (ι → UFW (Dict DataArray × Dict DataArray))}
    (hM : ∀ i, GoodSlot R I w Q J deltas Ls Qs ys i (seconds now) E (sc.2 i) x) {r : Dict DataArray × Dict DataArray}
    {t : Dict DataArray} (hr : (compositeO (dataArrayArith R) (is.map (updatingSlot implicit p)) sc x dt).2 = .ok r)
    (ht : convertTendenciesO (dataArrayArith R) x r.1 = .ok t) :
    NearDerivative I w Q y ((∑ i, Ls i) * E + ∑ i, Ds i 2 * seconds (deltas i)) (seconds now) t ∧
    HeldSlots R I w Q J deltas Ls Qs ys now E x
      (compositeO (dataArrayArith R) (is.map (updatingSlot implicit p)) sc x dt).1 := by
  obtain ⟨_, h2⟩ := hS.call hR hs hw hJ hdelta hnow rfl hτ hE hx his hall hM hr
  obtain ⟨h3, h4⟩ := h2 t ht
  refine ⟨h3, fun i => ?_⟩
  have hg := h4 i x 0 (le_refl 0) (units_refl x) (by rw [add_zero]; exact hnow)
  refine ⟨hg.1.1, ?_, hg.2, fun _ x' later => h4 i x' later⟩
  obtain ⟨s, ri, hri, hsl⟩ := composite_slots his hall hr i
  rw [hsl]
  obtain ⟨c, hc, ⟨_, hs2⟩ | ⟨tl, hl, hlt, _, hs2⟩⟩ := updatingO_ok hri
  · rw [hnow] at hc
    cases hc
    rw [hs2]
    exact ⟨now, rfl, le_refl now, fun h => by omega⟩
  · rw [hnow] at hc
    cases hc
    rw [hs2]
    refine ⟨tl, hl, (hM i).past hl, fun _ => ?_⟩
    rw [(hM i).1.1] at hlt
    exact hlt

/-- The later stages of a step: the components with time between updates give the tendencies of the first stage. -/
theorem PartsOf.later {dt : Int} (hS : PartsOf R I w Q J y p dt Ls Qs ys Ds) (hR : R.Faithful)
    (hs : ∀ un b, R.parse (un ++ " s^-1") = some b → b.offset = 0) (hw : ∀ q, 0 ≤ w q) (hJ : Convex ℝ J)
    (hdelta : ∀ i, 0 ≤ deltas i) {x x1 : EState DataArray} {now : Int} (hnow : x1.clock = .ok now) (hu : KeepsUnits x x1)
    (hτ : (seconds now : ℝ) ∈ J) {E F : Rat} (hE : 0 ≤ E) (hF : E ≤ F) (hx : NearSolution I w Q y F (seconds now) x1)
    {is : List ι} (his : is.Nodup) (hall : ∀ i, i ∈ is) {sc : σ × (ι → UFW (Dict DataArray × Dict DataArray))}
    (hM : HeldSlots R I w Q J deltas Ls Qs ys now E x sc) {r : Dict DataArray × Dict DataArray}
    {t : Dict DataArray} (hr : (compositeO (dataArrayArith R) (is.map (updatingSlot implicit p)) sc x1 dt).2 = .ok r)
    (ht : convertTendenciesO (dataArrayArith R) x1 r.1 = .ok t) :
    NearDerivative I w Q y ((∑ i, Ls i) * F + ∑ i, Ds i 2 * seconds (deltas i)) (seconds now) t ∧
    HeldSlots R I w Q J deltas Ls Qs ys now E x
      (compositeO (dataArrayArith R) (is.map (updatingSlot implicit p)) sc x1 dt).1 := by
  have hs0 : ((seconds 0 : Rat) : ℝ) = 0 := by
    rw [show seconds 0 = 0 by decide +kernel]
    norm_num
  have hgood : ∀ i, GoodSlot R I w Q J deltas Ls Qs ys i (seconds now) F (sc.2 i) x1 := fun i => by
    have := hM.good hw hS.lipschitz hdelta (le_refl 0) hF hu (by rw [add_zero]; exact hnow) i
    rwa [hs0, add_zero] at this
  obtain ⟨_, h2⟩ := hS.call hR hs hw hJ hdelta hnow rfl hτ (le_trans hE hF) hx his hall hgood hr
  obtain ⟨h3, h4⟩ := h2 t ht
  refine ⟨h3, fun i => ?_⟩
  have hg := h4 i x1 0 (le_refl 0) (units_refl x1) (by rw [add_zero]; exact hnow)
  obtain ⟨s, ri, hri, hsl⟩ := composite_slots his hall hr i
  by_cases hd : 0 < deltas i
  · obtain ⟨m1, ⟨tl, m2, _, m4⟩, _⟩ := hM i
    have hlt := m4 hd
    rw [← m1] at hlt
    rw [updatingO_waits hnow m2 hlt] at hsl
    rw [hsl]
    exact hM i
  · refine ⟨hg.1.1, ?_, hg.2, fun h => absurd h hd⟩
    rw [hsl]
    obtain ⟨c, hc, ⟨_, hs2⟩ | ⟨tl, hl, hlt, _, hs2⟩⟩ := updatingO_ok hri
    · rw [hnow] at hc
      cases hc
      rw [hs2]
      exact ⟨now, rfl, le_refl now, fun h => absurd h hd⟩
    · rw [hs2]
      exact ⟨tl, hl, (hgood i).past hl, fun h => absurd h hd⟩

theorem ssprk_runs_each (three : Bool) {dt : Int} (hS : PartsOf R I w Q J y p dt Ls Qs ys Ds)
    (hR : R.Faithful) (hs : ∀ un b, R.parse (un ++ " s^-1") = some b → b.offset = 0) (hw : ∀ q, 0 ≤ w q) (hJ : Convex ℝ J)
    (hy : SmoothDuring I w Q y J 1 D) (hD : ∀ j, 0 ≤ D j) (implicit : ι → Bool) (inProps outProps : PropDict) (inst : String)
    (tid : Bool) {b : Dict DataArray → EState DataArray → EState DataArray} (hdt : 0 ≤ dt) (hdelta : ∀ i, 0 ≤ deltas i)
    (hb : ∀ d x q, Q q → Dict.get? (b d x) q = Dict.get? x q) (hbd : BetweenDicts b) (hbu : ∀ d x, KeepsUnits x (b d x))
    (hbt : ∀ d x c, EState.clock x = .ok c → EState.clock (b d x) = .ok (c + dt)) {is : List ι} (his : is.Nodup)
    (hall : ∀ i, i ∈ is) :
    ∀ (n : Nat) (E : Rat) (ab : ABOver DataArray) (s : σ × (ι → UFW (Dict DataArray × Dict DataArray))) (x : EState DataArray)
      (now : Int) (abf : ABOver DataArray) (sf : σ × (ι → UFW (Dict DataArray × Dict DataArray)))
      (xf : EState DataArray), 0 ≤ E → ab.order = 1 → ab.hist = [] → x.clock = .ok now →
      (∀ i ≤ n, (seconds now : ℝ) + i * (seconds dt : ℝ) ∈ J) →
      (Dict.keys x).Nodup → NearSolution I w Q y E (seconds now) x →
      (∀ i, GoodSlot R I w Q J deltas Ls Qs ys i (seconds now) E (s.2 i) x) →
      runOver (tsCallO (dataArrayArith R) inProps outProps inst tid (sspCallO (dataArrayArith R)
        (compositeO (dataArrayArith R) (is.map (updatingSlot implicit p))) three)) b dt n ab s x = (abf, sf, .ok xf) →
      NearSolution I w Q y (grownErrors (stageGrowth three (|seconds dt| * ∑ i, Ls i))
        (lateTruncation three (∑ i, Ls i) D (seconds dt) +
          lateAdded three (∑ i, Ls i) (∑ i, Ds i 2 * seconds (deltas i)) (seconds dt)) E n)
        ((seconds now : ℝ) + n * (seconds dt : ℝ)) xf := by
  have hL : 0 ≤ ∑ i, Ls i := Finset.sum_nonneg fun i _ => hS.lipschitz i
  have hds : ∀ i, 0 ≤ seconds (deltas i) := fun i => by
    have : (0 : ℝ) ≤ (seconds (deltas i) : ℝ) := seconds_nonneg (hdelta i)
    exact_mod_cast this
  have he : 0 ≤ ∑ i, Ds i 2 * seconds (deltas i) := Finset.sum_nonneg fun i _ => mul_nonneg (hS.bounds i 2) (hds i)
  intro n
  induction n with
  | zero =>
    intro E ab s x now abf sf xf _ _ _ _ _ _ hx _ h
    unfold runOver at h
    simp only [Prod.mk.injEq, Except.ok.injEq] at h
    rw [← h.2.2]
    simpa [grownErrors] using hx
  | succ n ih =>
    intro E ab s x now abf sf xf hE ho hh hnow hτ hx hxn hM h
    rw [grownErrors_succ]
    unfold runOver at h
    rcases hc : tsCallO (dataArrayArith R) inProps outProps inst tid
      (sspCallO (dataArrayArith R) (compositeO (dataArrayArith R) (is.map (updatingSlot implicit p))) three) ab s x dt
      with ⟨ab1, s1, st1, er | ⟨d1, new⟩⟩
    · rw [hc] at h; cases h
    rw [hc] at h
    dsimp only at h
    obtain ⟨d, m, hk, hnew⟩ := tsCallO_keeps hc
    unfold sspCallO at hk
    simp only [Prod.mk.injEq] at hk
    obtain ⟨a1, a2, a3, a4⟩ := hk
    subst a3
    have h0 := hτ 0 (by omega)
    have h1 := hτ 1 (by omega)
    rw [Nat.cast_zero, zero_mul, add_zero] at h0
    rw [Nat.cast_one, one_mul] at h1
    obtain ⟨c, hheld, hun, o1, i1, k1, clk⟩ := ssprk_step_memory three hJ hy hD (conv := fun a units => a.toUnits R units)
      hL he (compositeO_dicts (dataArrayArith R) (is.map (updatingSlot implicit p))) hnow hE h0 h1 ho hh hx hxn
      (N := HeldSlots R I w Q J deltas Ls Qs ys now E x)
      (fun r t hr ht => hS.first hR hs hw hJ hdelta hnow h0 hE hxn his hall hM hr (by rwa [roundedArith_id] at ht))
      (fun s1 x1 r t F hN hu hc1 hF hx1 hr ht => hS.later hR hs hw hJ hdelta hc1 hu h0 hE hF hx1 his hall hN hr
        (by rwa [roundedArith_id] at ht))
      (ab' := ab1) (s' := s1) (diag := d) (n := m) (by rw [roundedArith_id, ← a1, ← a2, ← a4])
    have hg := stageGrowth_one_le three (mul_nonneg (abs_nonneg (seconds dt)) hL)
    have he0 := lateTruncation_nonneg three hL hD (seconds dt)
    have he1 : 0 ≤ lateAdded three (∑ i, Ls i) (∑ i, Ds i 2 * seconds (deltas i)) (seconds dt) := by
      unfold lateAdded
      split <;> positivity
    generalize lateAdded three (∑ i, Ls i) (∑ i, Ds i 2 * seconds (deltas i)) (seconds dt) = e1 at *
    have hE1 : E ≤ stageGrowth three (|seconds dt| * ∑ i, Ls i) * E + (lateTruncation three (∑ i, Ls i) D (seconds dt) + e1) := by
      nlinarith
    generalize stageGrowth three (|seconds dt| * ∑ i, Ls i) * E + (lateTruncation three (∑ i, Ls i) D (seconds dt) + e1) = E1 at *
    have hforw : ∀ i : Nat, (seconds (now + dt) : ℝ) + i * (seconds dt : ℝ) =
        (seconds now : ℝ) + (i + 1 : ℕ) * (seconds dt : ℝ) := by
      intro i
      rw [seconds_add]
      push_cast
      ring
    have hget : ∀ {q v}, Dict.get? m q = some v → Dict.get? new q = some v := by
      intro q v hv
      rw [hnew, (copyUntouchedO_spec _ _).2.1 q (Dict.mem_keys_of_get? hv), hv]
    have clk' : new.clock = .ok now := by
      unfold EState.clock at clk ⊢
      cases hm : Dict.get? m "time" with
      | none => rw [hm] at clk; cases clk
      | some v => rw [hget hm, ← hm]; exact clk
    have hun' : KeepsUnits x (b d1 new) := by
      intro q a ha
      obtain ⟨a', ha', e1⟩ := hun q a ha
      obtain ⟨a2, ha2, e2⟩ := hbu d1 new q a' (hget ha')
      exact ⟨a2, ha2, e2.trans e1⟩
    have hres := ih E1 ab1 s1 (b d1 new) (now + dt) abf sf xf (le_trans hE hE1) o1 i1 (hbt _ _ _ clk')
      (fun i hi => by rw [hforw]; exact hτ (i + 1) (by omega))
      (hbd d1 new (by rw [hnew]; exact nodup_copyUntouchedO _ _ k1))
      (fun q hq => by
        rw [seconds_add]
        obtain ⟨a, ha, hv⟩ := c q hq
        exact ⟨a, by rw [hb _ _ q hq, hget ha], hv⟩)
      (fun i => by
        rw [seconds_add]
        exact hheld.good hw hS.lipschitz hdelta hdt hE1 hun' (hbt _ _ _ clk') i) h
    rwa [hforw] at hres

/-- C130: a run of `n` steps of a new SSPRungeKutta with two or three stages and any number of components, each in a new
UpdateFrequencyWrapper with its own time `deltas i` between updates (0 for components that are not wrapped), in exact
arithmetic from exact initial values: the error of C129, and for each component an error of first order in its own time
between updates. -/
theorem ssprk_run_each (three : Bool) {dt : Int} (hS : PartsOf R I w Q J y p dt Ls Qs ys Ds)
    (hR : R.Faithful) (hs : ∀ un b, R.parse (un ++ " s^-1") = some b → b.offset = 0) (hw : ∀ q, 0 ≤ w q) (hJ : Convex ℝ J)
    (hy : SmoothDuring I w Q y J 1 D) (hD : ∀ j, 0 ≤ D j) (implicit : ι → Bool) (inProps outProps : PropDict) (inst : String)
    (tid : Bool) {b : Dict DataArray → EState DataArray → EState DataArray} (hdt : 0 ≤ dt) (hdelta : ∀ i, 0 ≤ deltas i)
    (hb : ∀ d x q, Q q → Dict.get? (b d x) q = Dict.get? x q) (hbd : BetweenDicts b) (hbu : ∀ d x, KeepsUnits x (b d x))
    (hbt : ∀ d x c, EState.clock x = .ok c → EState.clock (b d x) = .ok (c + dt)) (n : Nat) (s : σ)
    {x : EState DataArray} {now : Int} (hnow : x.clock = .ok now) {is : List ι} (his : is.Nodup) (hall : ∀ i, i ∈ is)
    {abf : ABOver DataArray} {sf : σ × (ι → UFW (Dict DataArray × Dict DataArray))} {xf : EState DataArray}
    (htimes : ∀ i ≤ n, (seconds now : ℝ) + i * (seconds dt : ℝ) ∈ J) (hx : (Dict.keys x).Nodup)
    (hxn : NearSolution I w Q y 0 (seconds now) x)
    (h : runOver (tsCallO (dataArrayArith R) inProps outProps inst tid (sspCallO (dataArrayArith R)
        (compositeO (dataArrayArith R) (is.map (updatingSlot implicit p))) three)) b dt n { order := 1 }
          (s, fun i => { delta := deltas i }) x = (abf, sf, .ok xf)) :
    ∀ q, Q q → ∃ a, Dict.get? xf q = some (.da a) ∧ ∀ ix, I ix →
      |(a.at' ix : ℝ) - y 0 q ix ((seconds now : ℝ) + n * (seconds dt : ℝ))| ≤
        Real.exp ((∑ i, (Ls i : ℝ)) * (n * (seconds dt : ℝ))) * (n * (seconds dt : ℝ)) *
        ((seconds dt : ℝ) * (D 2 / 2 + (∑ i, (Ls i : ℝ)) * D 1 *
            (1 / 2 + if three then (seconds dt : ℝ) * (∑ i, (Ls i : ℝ)) / 6 else 0)) +
          (∑ i, (Ds i 2 : ℝ) * (seconds (deltas i) : ℝ)) * (1 + (seconds dt : ℝ) * (∑ i, (Ls i : ℝ)) / 2 +
            if three then ((seconds dt : ℝ) * (∑ i, (Ls i : ℝ))) ^ 2 / 6 else 0)) * w q := by
  have main := ssprk_runs_each three hS hR hs hw hJ hy hD implicit inProps outProps inst tid hdt hdelta hb hbd hbu hbt his
    hall n 0 { order := 1 } (s, fun i => { delta := deltas i }) x now abf sf xf (le_refl 0) rfl rfl hnow htimes hx hxn
    (fun i => ⟨⟨rfl, ⟨now, hnow, rfl⟩, Or.inl fun tl h => (by cases h)⟩, fun r hr => (by cases hr)⟩) h
  have hL : 0 ≤ ∑ i, Ls i := Finset.sum_nonneg fun i _ => hS.lipschitz i
  have hds : ∀ i, 0 ≤ seconds (deltas i) := fun i => by
    have : (0 : ℝ) ≤ (seconds (deltas i) : ℝ) := seconds_nonneg (hdelta i)
    exact_mod_cast this
  have he : 0 ≤ ∑ i, Ds i 2 * seconds (deltas i) := Finset.sum_nonneg fun i _ => mul_nonneg (hS.bounds i 2) (hds i)
  have hh : (0 : ℝ) ≤ (seconds dt : ℝ) := seconds_nonneg hdt
  have hh' : 0 ≤ seconds dt := by exact_mod_cast hh
  have hLc : ((∑ i, Ls i : Rat) : ℝ) = ∑ i, (Ls i : ℝ) := by push_cast; rfl
  have hec : ((∑ i, Ds i 2 * seconds (deltas i) : Rat) : ℝ) = ∑ i, (Ds i 2 : ℝ) * (seconds (deltas i) : ℝ) := by push_cast; rfl
  rw [← hLc, ← hec]
  generalize (∑ i, Ls i) = L at *
  generalize (∑ i, Ds i 2 * seconds (deltas i)) = e at *
  unfold grownErrors at main
  intro q hq
  obtain ⟨a, ha, hv⟩ := main q hq
  refine ⟨a, ha, fun ix hix => le_trans (hv ix hix) ?_⟩
  have hwq : (0 : ℝ) ≤ w q := by exact_mod_cast hw q
  refine mul_le_mul_of_nonneg_right ?_ hwq
  rw [mul_zero, zero_add]
  have hz : 0 ≤ |seconds dt| * L := mul_nonneg (abs_nonneg _) hL
  have hK1 := stageGrowth_one_le three hz
  have hKe := stageGrowth_le_exp three hz
  have ht0 : 0 ≤ lateTruncation three L D (seconds dt) + lateAdded three L e (seconds dt) := by
    refine add_nonneg (lateTruncation_nonneg three hL hD (seconds dt)) ?_
    unfold lateAdded
    split <;> positivity
  have hT : ((lateTruncation three L D (seconds dt) + lateAdded three L e (seconds dt) : Rat) : ℝ) =
      (seconds dt : ℝ) * ((seconds dt : ℝ) * (D 2 / 2 + L * D 1 * (1 / 2 + if three then (seconds dt : ℝ) * L / 6 else 0)) +
        e * (1 + (seconds dt : ℝ) * L / 2 + if three then ((seconds dt : ℝ) * L) ^ 2 / 6 else 0)) := by
    unfold lateTruncation lateAdded
    rw [abs_of_nonneg hh']
    split <;> (push_cast; ring)
  generalize lateTruncation three L D (seconds dt) + lateAdded three L e (seconds dt) = T at *
  have hsum : ((List.range n).map fun i => stageGrowth three (|seconds dt| * L) ^ i).sum ≤
      n * stageGrowth three (|seconds dt| * L) ^ n := by
    have := List.sum_le_card_nsmul ((List.range n).map fun i => stageGrowth three (|seconds dt| * L) ^ i)
      (stageGrowth three (|seconds dt| * L) ^ n) (by
        intro z hz
        obtain ⟨i, hi, rfl⟩ := List.mem_map.1 hz
        exact pow_le_pow_right₀ hK1 (le_of_lt (List.mem_range.1 hi)))
    simpa using this
  refine le_trans (Rat.cast_le.2 (mul_le_mul_of_nonneg_right hsum ht0)) ?_
  have hpow : ((stageGrowth three (|seconds dt| * L) : Rat) : ℝ) ^ n ≤ Real.exp (L * (n * (seconds dt : ℝ))) := by
    refine le_trans (pow_le_pow_left₀ (by exact_mod_cast le_trans zero_le_one hK1) hKe n) (le_of_eq ?_)
    rw [← Real.exp_nat_mul, abs_of_nonneg hh']
    congr 1
    push_cast
    ring
  have ht0' : (0 : ℝ) ≤ ((T : Rat) : ℝ) := by exact_mod_cast ht0
  have hres := mul_le_mul_of_nonneg_right (mul_le_mul_of_nonneg_left hpow (Nat.cast_nonneg n)) ht0'
  have ecast : ((n * stageGrowth three (|seconds dt| * L) ^ n * T : Rat) : ℝ) =
      (n : ℝ) * ((stageGrowth three (|seconds dt| * L) : Rat) : ℝ) ^ n * (T : ℝ) := by
    simp only [Rat.cast_mul, Rat.cast_pow, Rat.cast_natCast]
  rw [ecast]
  refine le_trans hres (le_of_eq ?_)
  rw [hT]
  ring

end

/-! ## Two halves of a decay, one of them updated every two seconds -/

/-- in the second stage of the first step the second component gives its tendency of the first stage -/
example : Exc.test (runOver (tsCallO (dataArrayArith Demo.reg) [] [] "" false (sspCallO (dataArrayArith Demo.reg)
      (compositeO (dataArrayArith Demo.reg) ([false, true].map (updatingSlot (fun _ => false) Demo.halfFades))) false))
      (Demo.ticks 1000000) 1000000 1 { order := 1 } ((), fun i => { delta := if i then 2000000 else 0 }) (Demo.scalarAt 7 0)).2.2
    (fun x => Exc.test (EState.da x "T") (fun a => a.at' (fun _ => 0) == (7 + (63 / 10 - 63 / 200 - 7 / 20)) / 2)) = true := by
  decide +kernel

/-- a run of any number of steps in which the second component is updated every `delta` -/
example (dt delta : Int) (hdt : 0 ≤ dt) (hdelta : 0 ≤ delta) (n : Nat) {abf : ABOver DataArray}
    {sf : Unit × (Bool → UFW (Dict DataArray × Dict DataArray))} {xf : EState DataArray}
    (h : runOver (tsCallO (dataArrayArith Demo.reg) [] [] "" false (sspCallO (dataArrayArith Demo.reg)
      (compositeO (dataArrayArith Demo.reg) ([false, true].map (updatingSlot (fun _ => false) Demo.halfFades))) false))
      (Demo.ticks dt) dt n { order := 1 } ((), fun i => { delta := if i then delta else 0 }) (Demo.scalarAt 7 0) =
        (abf, sf, .ok xf)) :
    ∃ a, Dict.get? xf "T" = some (.da a) ∧ |(a.at' (fun _ => 0) : ℝ) - 7 * Real.exp (-((n * (seconds dt : ℝ)) / 10))| ≤
      Real.exp (1 / 10 * (n * (seconds dt : ℝ))) * (n * (seconds dt : ℝ)) * (7 / 100 * (seconds dt : ℝ) +
        7 / 200 * (seconds delta : ℝ) * (1 + (seconds dt : ℝ) / 20)) := by
  have hz : ((seconds 0 : Rat) : ℝ) = 0 := by
    rw [show seconds 0 = 0 by decide +kernel]
    norm_num
  have hs0 : (0 : ℝ) ≤ (seconds dt : ℝ) := seconds_nonneg hdt
  obtain ⟨a, ha, hv⟩ := ssprk_run_each (deltas := fun i => if i then delta else 0) false (Demo.halves dt) Demo.reg_faithful
    Demo.reg_rates (fun _ => by norm_num) (convex_Ici 0)
    (Demo.fading_smooth 1) (fun j => by positivity) (fun _ => false) [] [] "" false (b := Demo.ticks dt) hdt
    (fun i => by cases i <;> simp [hdelta])
    (fun d x q hq => Demo.ticks_get dt d x (by rw [hq]; decide))
    (Demo.ticks_dicts dt)
    (fun d x q a ha => by
      by_cases hq : q = "time"
      · refine ⟨a, ?_, rfl⟩
        unfold Demo.ticks EState.clock
        rw [← hq, ha]
        exact ha
      · exact ⟨a, by rw [Demo.ticks_get dt d x hq, ha], rfl⟩)
    (fun d x c hc => by
      unfold Demo.ticks
      rw [hc]
      unfold EState.clock
      rw [Dict.get?_set_self]) n () (x := Demo.scalarAt 7 0) (now := 0) rfl (is := [false, true]) (by decide) (by decide)
    (fun i _ => by
      show (0 : ℝ) ≤ (seconds 0 : ℝ) + i * (seconds dt : ℝ)
      rw [hz]
      positivity)
    (by decide)
    (by
      rw [hz]
      intro q hq
      obtain ⟨a, ha, hv⟩ := Demo.fading_starts q hq
      refine ⟨a, ?_, hv⟩
      cases hq
      exact ha) h "T" rfl
  refine ⟨a, ha, ?_⟩
  have := hv (fun _ => 0) rfl
  rw [hz, zero_add] at this
  unfold Demo.fading at this
  rw [pow_zero, one_mul] at this
  refine le_trans this (le_of_eq ?_)
  rw [Fintype.sum_bool, Fintype.sum_bool]
  simp only [if_true, Bool.false_eq_true, if_false]
  rw [hz]
  push_cast
  rw [show ((1 / 20 + 1 / 20) * (n * (seconds dt : ℝ)) : ℝ) = 1 / 10 * (n * (seconds dt : ℝ)) by ring]
  ring

end Verif

import Verif.Props.UpdateConvergence
import Verif.Props.LeapfrogConvergence
/-! # Leapfrog runs with components in UpdateFrequencyWrappers: property C126 -/

namespace Verif

section
variable {fl : Rat → Rat} {conv : DataArray → String → Except Err DataArray}

/-- The filtered value has the attributes of the present one, the new value those of the previous one. -/
theorem leapfrogEntryO_attrs {ν α : Rat} {dt : Int} {o x v n : DataArray} {r : DataArray × Except Err DataArray}
    (h : leapfrogEntryO (roundedArith fl conv) ν α o x v dt = .ok r) (hn : r.2 = .ok n) :
    r.1.attrs = x.attrs ∧ n.attrs = o.attrs := by
  have hiadd : ∀ {a b c : DataArray}, (roundedArith fl conv).iadd a b = .ok c → c.attrs = a.attrs := by
    intro a b c hc
    obtain ⟨r', hr, hc⟩ := Exc.bind_ok_iff.1 hc
    injection hc with hc
    subst hc
    exact (iadd_ok hr).1
  unfold leapfrogEntryO at h
  obtain ⟨n0, h0, h⟩ := Exc.bind_ok_iff.1 h
  obtain ⟨d, _, h⟩ := Exc.bind_ok_iff.1 h
  obtain ⟨d', _, h⟩ := Exc.bind_ok_iff.1 h
  obtain ⟨x', hx', h⟩ := Exc.bind_ok_iff.1 h
  injection h with h
  subst h
  refine ⟨hiadd hx', ?_⟩
  simp only at hn
  split at hn
  · exact (hiadd hn).trans (roundedAdd_ok h0).1
  · injection hn with hn
    rw [← hn]
    exact (roundedAdd_ok h0).1

/-- The attributes of every quantity after the loop. -/
theorem stepLeapfrogO_attrs {ν α : Rat} {old : EState DataArray} {t : Dict DataArray} {dt : Int} :
    ∀ {ks : List String} {state new0 state' new : EState DataArray}, ks.Nodup →
      stepLeapfrogO (roundedArith fl conv) ν α old t dt ks state new0 = (state', .ok new) →
      (∀ k, k ∉ ks → Dict.get? state' k = Dict.get? state k ∧ Dict.get? new k = Dict.get? new0 k) ∧
      (∀ k ∈ ks, ∃ o x x' n, Dict.get? old k = some (.da o) ∧ Dict.get? state k = some (.da x) ∧
        Dict.get? state' k = some (.da x') ∧ Dict.get? new k = some (.da n) ∧ x'.attrs = x.attrs ∧ n.attrs = o.attrs) := by
  intro ks
  induction ks with
  | nil =>
    intro state new0 state' new _ h
    unfold stepLeapfrogO at h
    simp only [Prod.mk.injEq, Except.ok.injEq] at h
    obtain ⟨rfl, rfl⟩ := h
    exact ⟨fun k _ => ⟨rfl, rfl⟩, fun k hk => by simp at hk⟩
  | cons k ks ih =>
    intro state new0 state' new hnd h
    rw [List.nodup_cons] at hnd
    unfold stepLeapfrogO at h
    split at h
    · cases h
    · rename_i r hr
      obtain ⟨o, ho, hr⟩ := Exc.bind_ok_iff.1 hr
      obtain ⟨x, hx, hr⟩ := Exc.bind_ok_iff.1 hr
      obtain ⟨v, hv, hr⟩ := Exc.bind_ok_iff.1 hr
      split at h
      · cases h
      · rename_i n hn
        obtain ⟨i3, i4⟩ := ih hnd.2 h
        obtain ⟨b1, b2⟩ := leapfrogEntryO_attrs hr hn
        have ho := EState.da_ok.1 ho
        have hx := EState.da_ok.1 hx
        refine ⟨?_, ?_⟩
        · intro q hq
          rw [List.mem_cons, not_or] at hq
          obtain ⟨j1, j2⟩ := i3 q hq.2
          rw [j1, j2, Dict.get?_set_ne _ _ (Ne.symm hq.1), Dict.get?_set_ne _ _ (Ne.symm hq.1)]
          exact ⟨rfl, rfl⟩
        · intro q hq
          by_cases hqk : q = k
          · subst hqk
            obtain ⟨j1, j2⟩ := i3 q hnd.1
            rw [Dict.get?_set_self] at j1 j2
            exact ⟨o, x, r.1, n, ho, hx, j1, j2, b1, b2⟩
          · rcases List.mem_cons.1 hq with rfl | hq
            · exact absurd rfl hqk
            · obtain ⟨o', x', y, m, e1, e2, e4, e5, e6⟩ := i4 q hq
              rw [Dict.get?_set_ne _ _ (Ne.symm hqk)] at e2
              exact ⟨o', x', y, m, e1, e2, e4, e5, e6⟩

theorem EState.clock_eq_ok {V : Type} {x : EState V} {c : Int} : x.clock = .ok c ↔ Dict.get? x "time" = some (.time c) := by
  unfold EState.clock
  split
  · rename_i t hx
    rw [hx]
    simp
  · rename_i hx
    rw [hx]
    simp
  · rename_i hx
    rw [hx]
    simp

/-- A step from a state in the units of the previous one keeps the units and the time. -/
theorem lf_step_keeps {σ : Type} {p : ProgOver σ DataArray} {inProps outProps : PropDict} {inst : String} {tid : Bool}
    {lf lf' : LFOver DataArray} {s s' : σ} {x st new : EState DataArray} {dt : Int} {d : Dict DataArray}
    (hold : ∀ o, lf.old = some o → KeepsUnits o x)
    (hd : ∀ r, (p s x dt).2 = .ok r → (Dict.keys r.1).Nodup)
    (h : tsCallO (roundedArith fl conv) inProps outProps inst tid (LFOver.call (roundedArith fl conv) p) lf s x dt =
      (lf', s', st, .ok (d, new))) :
    KeepsUnits x new ∧ (∀ c, x.clock = .ok c → new.clock = .ok c) ∧ ∀ o, lf'.old = some o → KeepsUnits o new := by
  obtain ⟨d0, m, hk, hnew⟩ := tsCallO_keeps h
  obtain ⟨_, _, g3, r, t, n, hr, ht, hm, hcase⟩ := lfOver_ok hk
  -- every quantity of the new state, and what became of the present one
  have key : ∀ q, (q ∈ Dict.keys n ∧ ∃ a a' b, Dict.get? x q = some (.da a) ∧ Dict.get? st q = some (.da a') ∧
        Dict.get? n q = some (.da b) ∧ Dict.get? a'.attrs "units" = Dict.get? a.attrs "units" ∧
        Dict.get? b.attrs "units" = Dict.get? a.attrs "units") ∨
      (q ∉ Dict.keys n ∧ Dict.get? st q = Dict.get? x q) := by
    intro q
    rcases hcase with ⟨_, hst, hn⟩ | ⟨o, hsome, hn⟩
    · subst hst
      unfold stepEulerO at hn
      obtain ⟨k1, k2⟩ := stepKeysO_ok hn
      by_cases hq : q ∈ Dict.keys n
      · obtain ⟨b, hf, hgb⟩ := k2 q (by rw [← k1]; exact hq)
        obtain ⟨a, ha, hf⟩ := Exc.bind_ok_iff.1 hf
        obtain ⟨v, hv, hf⟩ := Exc.bind_ok_iff.1 hf
        have ha := EState.da_ok.1 ha
        exact Or.inl ⟨hq, a, a, b, ha, ha, hgb, rfl, by rw [(roundedAdd_ok hf).1]⟩
      · exact Or.inr ⟨hq, rfl⟩
    · have hnd : (Dict.keys t).Nodup := by
        rw [convertTendenciesO_keys ht]
        exact hd _ hr
      obtain ⟨s1, s2⟩ := stepLeapfrogO_attrs hnd hn
      by_cases hq : q ∈ Dict.keys t
      · obtain ⟨oa, a, a', b, e1, e2, e3, e4, e5, e6⟩ := s2 q hq
        obtain ⟨a2, f1, f2⟩ := hold o hsome q oa e1
        rw [e2] at f1
        cases f1
        exact Or.inl ⟨Dict.mem_keys_of_get? e4, a, a', b, e2, e3, e4, by rw [e5], by rw [e6, f2]⟩
      · obtain ⟨j1, j2⟩ := s1 q hq
        refine Or.inr ⟨fun hqn => ?_, j1⟩
        obtain ⟨z, hz⟩ := Dict.get?_of_mem_keys hqn
        rw [j2] at hz
        cases hz
  have hget : ∀ q, q ∈ Dict.keys st → Dict.get? new q = if q ∈ Dict.keys n then Dict.get? n q else Dict.get? st q := by
    intro q hq
    obtain ⟨c1, c2, c3⟩ := copyUntouchedO_spec st n
    obtain ⟨_, c5, _⟩ := copyUntouchedO_spec st (copyUntouchedO st n)
    rw [hnew, hm, c5 q ((c1 q).2 (Or.inl hq))]
    split
    · rename_i hqn
      exact c2 q hqn
    · rename_i hqn
      exact c3 q hqn
  refine ⟨fun q a ha => ?_, fun c hc => ?_, fun o ho => ?_⟩
  · rcases key q with ⟨hq, a1, a', b, e1, e2, e3, _, e5⟩ | ⟨hq, e1⟩
    · rw [ha] at e1
      cases e1
      exact ⟨b, by rw [hget q (Dict.mem_keys_of_get? e2), if_pos hq, e3], e5⟩
    · have hst : Dict.get? st q = some (.da a) := e1.trans ha
      exact ⟨a, by rw [hget q (Dict.mem_keys_of_get? hst), if_neg hq, hst], rfl⟩
  · rw [EState.clock_eq_ok] at hc ⊢
    rcases key "time" with ⟨_, a1, _, _, e1, _⟩ | ⟨hq, e1⟩
    · rw [hc] at e1
      cases e1
    · have hst : Dict.get? st "time" = some (.time c) := e1.trans hc
      rw [hget _ (Dict.mem_keys_of_get? hst), if_neg hq, hst]
  · rw [g3] at ho
    cases ho
    intro q a ha
    rcases key q with ⟨hq, a1, a', b, e1, e2, e3, e4, e5⟩ | ⟨hq, _⟩
    · rw [ha] at e2
      cases e2
      exact ⟨b, by rw [hget q (Dict.mem_keys_of_get? ha), if_pos hq, e3], e5.trans e4.symm⟩
    · exact ⟨a, by rw [hget q (Dict.mem_keys_of_get? ha), if_neg hq, ha], rfl⟩

/-- What the components remember after a successful call. -/
theorem lfCall_world {σ : Type} {A : Arith DataArray} {prog : ProgOver σ DataArray} {lf lf' : LFOver DataArray} {s s' : σ}
    {state st new : EState DataArray} {dt : Int} {diag : Dict DataArray}
    (h : LFOver.call A prog lf s state dt = (lf', s', st, .ok (diag, new))) : s' = (prog s state dt).1 := by
  unfold LFOver.call at h
  split at h
  · dsimp only at h
    split at h
    · cases h
    · split at h
      · cases h
      · split at h
        · split at h
          · cases h
          · cases h
            rfl
        · split at h
          · cases h
          · cases h
            rfl
  · cases h

end

section
variable {u : Rat} {fl : Rat → Rat} {I : (String → Nat) → Prop}
  {w : String → Rat} {Q : String → Prop} {y : Trajectory} {J : Set ℝ} {D : Nat → Rat}

/-- C126: a run of `n` steps of a new Leapfrog with a component in a new UpdateFrequencyWrapper with the time between
updates `delta` ends within the bound of C117, where the tendencies have the additional error `D2 delta`: what the
derivative of the solution can change until the next update. -/
theorem lf_run_updating (hu : 0 ≤ u) (hfl : Rounds u fl) (conv : DataArray → String → Except Err DataArray)
    (hw : ∀ q, 0 ≤ w q) (hJ : Convex ℝ J) (hy : SmoothDuring I w Q y J 2 D) (hD : ∀ j, 0 ≤ D j)
    {L e X T : Rat} (hL : 0 ≤ L) (he : 0 ≤ e) (hX : 0 ≤ X) (hT : 0 ≤ T)
    {σ : Type} {p : ProgOver σ DataArray} (hd : GivesDicts p) {ν α : Rat} (hν0 : 0 ≤ ν) (hν : ν ≤ 1) (hα0 : 0 ≤ α) (hα : α ≤ 1)
    (implicit : Bool) (inProps outProps : PropDict) (inst : String) (tid : Bool)
    {b : Dict DataArray → EState DataArray → EState DataArray} {dt delta : Int} (hdt : 0 ≤ dt) (hdelta : 0 ≤ delta)
    (hb : ∀ d x q, Q q → Dict.get? (b d x) q = Dict.get? x q) (hbu : ∀ d x, KeepsUnits x (b d x))
    (hbt : ∀ d x c, EState.clock x = .ok c → EState.clock (b d x) = .ok (c + dt)) (n : Nat)
    {E0 : Rat} (hE0 : 0 ≤ E0) (s : σ) (x : EState DataArray) {now : Int} (hnow : x.clock = .ok now)
    {lff : LFOver DataArray} {sf : σ × UFW (Dict DataArray × Dict DataArray)}
    {xf : EState DataArray} (htimes : ∀ i ≤ n, (seconds now : ℝ) + i * (seconds dt : ℝ) ∈ J)
    (hx : NearSolution I w Q y E0 (seconds now) x)
    (hrun : ∀ i < n, ∀ lfi si wi xi, runOver (tsCallO (roundedArith fl conv) inProps outProps inst tid
          (LFOver.call (roundedArith fl conv) (updatingO implicit p))) b dt i { strength := ν, alpha := α }
            (s, { delta := delta }) x = (lfi, (si, wi), .ok xi) →
        (u ≠ 0 → StateSized I w X xi ∧ ∀ o, lfi.old = some o → StateSized I w X o) ∧
        ∀ r t, (p si xi dt).2 = .ok r → convertTendenciesO (roundedArith fl conv) xi r.1 = .ok t →
          (u ≠ 0 → TendSized I w T t) ∧
          ∀ E, 0 ≤ E → NearSolution I w Q y E ((seconds now : ℝ) + i * (seconds dt : ℝ)) xi →
            NearDerivative I w Q y (L * E + e) ((seconds now : ℝ) + i * (seconds dt : ℝ)) t)
    (h : runOver (tsCallO (roundedArith fl conv) inProps outProps inst tid
        (LFOver.call (roundedArith fl conv) (updatingO implicit p))) b dt n { strength := ν, alpha := α }
          (s, { delta := delta }) x = (lff, sf, .ok xf)) :
    NearSolution I w Q y ((1 + 2 * |seconds dt| * L) ^ n * (E0 + ((List.range n).map fun i =>
      lfStepError ν D (seconds dt) i + lfAddedError u (e + D 2 * seconds delta) X T (seconds dt)).sum))
      ((seconds now : ℝ) + n * (seconds dt : ℝ)) xf := by
  have hsd : (0 : ℝ) ≤ (seconds delta : ℝ) := seconds_nonneg hdelta
  have hsd' : 0 ≤ seconds delta := by exact_mod_cast hsd
  have hsdt : (0 : ℝ) ≤ (seconds dt : ℝ) := seconds_nonneg hdt
  have hDd : 0 ≤ D 2 * seconds delta := mul_nonneg (hD 2) hsd'
  refine lf_run_converges_memory hu hfl conv hw hJ hy hD hL (add_nonneg he hDd) hX hT hν0 hν hα0 hα inProps outProps inst tid hb
    (M := fun τ E lf (s : σ × UFW (Dict DataArray × Dict DataArray)) x => GoodCache I w Q y J (roundedArith fl conv) u L e T delta τ E s.2 x ∧
      (∀ r, s.2.cached = some r → (Dict.keys r.1).Nodup) ∧ ∀ o, lf.old = some o → KeepsUnits o x)
    ?_ n hE0 (s, { delta := delta }) x (seconds now) htimes hx ?_ ?_ h
  · rintro τ E E' lf s x hE ⟨⟨h1, h2, h3⟩, h4⟩
    refine ⟨⟨h1, h2, ?_⟩, h4⟩
    rcases h3 with h3 | ⟨r, tl, t, g1, g2, g3, g4, g5, g6, g7⟩
    · exact Or.inl h3
    · refine Or.inr ⟨r, tl, t, g1, g2, g3, g4, g5, g6, g7.mono hw ?_⟩
      have := mul_le_mul_of_nonneg_left hE hL
      linarith
  · exact ⟨⟨rfl, ⟨now, hnow, rfl⟩, Or.inl fun tl h => (by cases h)⟩, fun r hr => (by cases hr), fun o ho => (by cases ho)⟩
  · rintro i hi lfi ⟨si, wi⟩ xi hri
    obtain ⟨hXi, hpi⟩ := hrun i hi lfi si wi xi hri
    refine ⟨hXi, ?_⟩
    rintro E hE hne ⟨⟨hdl, ⟨c, hc, hτ⟩, hcache⟩, hcnd, hold⟩
    have hnext : (seconds now : ℝ) + (i + 1 : ℕ) * (seconds dt : ℝ) = (seconds (c + dt) : ℝ) := by
      rw [seconds_add, ← hτ]
      push_cast
      ring
    have hin : (seconds c : ℝ) ∈ J := by
      rw [← hτ]
      exact htimes i (by omega)
    have hnd : ∀ r, (updatingO implicit p (si, wi) xi dt).2 = .ok r → (Dict.keys r.1).Nodup := by
      intro r hr
      obtain ⟨_, _, ⟨hnew, _⟩ | ⟨_, _, _, hca, _⟩⟩ := updatingO_ok hr
      · exact hd _ _ _ _ hnew
      · exact hcnd r hca
    -- the tendencies of this step, and the cache after it
    have both : ∀ r t, (updatingO implicit p (si, wi) xi dt).2 = .ok r →
        convertTendenciesO (roundedArith fl conv) xi r.1 = .ok t →
        ((u ≠ 0 → TendSized I w T t) ∧
          NearDerivative I w Q y (L * E + (e + D 2 * seconds delta)) ((seconds now : ℝ) + i * (seconds dt : ℝ)) t) ∧
        ∀ x', KeepsUnits xi x' → EState.clock x' = .ok (c + dt) →
          GoodCache I w Q y J (roundedArith fl conv) u L e T delta ((seconds now : ℝ) + (i + 1 : ℕ) * (seconds dt : ℝ)) E
            (updatingO implicit p (si, wi) xi dt).1.2 x' ∧
          ∀ r, (updatingO implicit p (si, wi) xi dt).1.2.cached = some r → (Dict.keys r.1).Nodup := by
      intro r t hr ht
      obtain ⟨c', hc', hcase⟩ := updatingO_ok hr
      rw [hc] at hc'
      cases hc'
      rcases hcase with ⟨hnew, hs'⟩ | ⟨tl, hl, hlt, hca, hs'⟩
      · obtain ⟨hTt, hnear⟩ := hpi r t hnew ht
        have hn := hnear E hE hne
        refine ⟨⟨hTt, hn.mono hw (by linarith)⟩, ?_⟩
        intro x' hz1 hz2
        rw [hs']
        refine ⟨⟨hdl, ⟨c + dt, hz2, hnext⟩, Or.inr ⟨r, c, t, rfl, rfl, hin, ?_, convertTendenciesO_units hz1 ht, hTt, ?_⟩⟩,
          fun r' hr' => ?_⟩
        · rw [hnext, seconds_add]
          linarith
        · rw [← hτ]
          exact hn
        · cases hr'
          exact hnd _ hr
      · rcases hcache with hcn | ⟨r', tl', t', g1, g2, g3, g4, g5, g6, g7⟩
        · obtain ⟨h0, h1⟩ := hcn tl hl
          rw [hτ, seconds_le_iff] at h1
          dsimp only at hdl hlt
          omega
        · rw [hl] at g2
          cases g2
          rw [hca] at g1
          cases g1
          rw [ht] at g5
          cases g5
          have hdist : |(seconds c : ℝ) - (seconds tl : ℝ)| ≤ (seconds delta : Rat) := by
            rw [← hτ, abs_of_nonneg (by linarith), hτ]
            have := seconds_le (show c ≤ tl + delta by dsimp only at hdl hlt; omega)
            rw [seconds_add] at this
            linarith
          refine ⟨⟨g6, ?_⟩, ?_⟩
          · rw [hτ]
            have := g7.later hJ (by omega) hy hD hw g3 hin hdist
            rwa [add_assoc] at this
          · intro x' hz1 hz2
            rw [hs']
            refine ⟨⟨hdl, ⟨c + dt, hz2, hnext⟩,
              Or.inr ⟨r, tl, t, hca, hl, g3, ?_, convertTendenciesO_units hz1 ht, g6, g7⟩⟩, hcnd⟩
            rw [hnext, seconds_add, ← hτ]
            linarith
    refine ⟨hnd, fun r t hr ht => (both r t hr ht).1, fun lf' s' st d new hstep => ?_⟩
    obtain ⟨k1, k2, k3⟩ := lf_step_keeps hold hnd hstep
    have htrans : ∀ {z}, KeepsUnits z new → KeepsUnits z (b d new) := by
      intro z hz q a ha
      obtain ⟨a', ha', hua⟩ := hz q a ha
      obtain ⟨a2, ha2, hua2⟩ := hbu d new q a' ha'
      exact ⟨a2, ha2, hua2.trans hua⟩
    obtain ⟨d0, m, hk, _⟩ := tsCallO_keeps hstep
    obtain ⟨_, _, _, r, t, _, hr, ht, _⟩ := lfOver_ok hk
    obtain ⟨c1, c2⟩ := (both r t hr ht).2 (b d new) (htrans k1) (hbt _ _ _ (k2 c hc))
    rw [lfCall_world hk]
    exact ⟨c1, c2, fun o ho => htrans (k3 o ho)⟩

/-- C126: such runs in exact arithmetic over the time `n dt`: the error of C117 and an error of first order in the time
between updates, however many steps are taken. -/
theorem lf_run_updating_exact (R : Registry) (hw : ∀ q, 0 ≤ w q) (hJ : Convex ℝ J)
    (hy : SmoothDuring I w Q y J 2 D) (hD : ∀ j, 0 ≤ D j) {L : Rat} (hL : 0 ≤ L) {σ : Type} {p : ProgOver σ DataArray}
    (hd : GivesDicts p) {ν α : Rat} (hν0 : 0 ≤ ν) (hν : ν ≤ 1) (hα0 : 0 ≤ α) (hα : α ≤ 1)
    (implicit : Bool) (inProps outProps : PropDict) (inst : String) (tid : Bool)
    {b : Dict DataArray → EState DataArray → EState DataArray} {dt delta : Int} (hdt : 0 ≤ dt) (hdelta : 0 ≤ delta)
    (hb : ∀ d x q, Q q → Dict.get? (b d x) q = Dict.get? x q) (hbu : ∀ d x, KeepsUnits x (b d x))
    (hbt : ∀ d x c, EState.clock x = .ok c → EState.clock (b d x) = .ok (c + dt)) (n : Nat) (hn : 1 ≤ n) (s : σ)
    (x : EState DataArray) {now : Int} (hnow : x.clock = .ok now) {lff : LFOver DataArray}
    {sf : σ × UFW (Dict DataArray × Dict DataArray)} {xf : EState DataArray}
    (htimes : ∀ i ≤ n, (seconds now : ℝ) + i * (seconds dt : ℝ) ∈ J) (hx : NearSolution I w Q y 0 (seconds now) x)
    (hrhs : ∀ i < n, ∀ si xi r t E, (p si xi dt).2 = .ok r → convertTendenciesO (dataArrayArith R) xi r.1 = .ok t →
      0 ≤ E → NearSolution I w Q y E ((seconds now : ℝ) + i * (seconds dt : ℝ)) xi →
        NearDerivative I w Q y (L * E) ((seconds now : ℝ) + i * (seconds dt : ℝ)) t)
    (h : runOver (tsCallO (dataArrayArith R) inProps outProps inst tid
        (LFOver.call (dataArrayArith R) (updatingO implicit p))) b dt n { strength := ν, alpha := α }
          (s, { delta := delta }) x = (lff, sf, .ok xf)) :
    ∀ q, Q q → ∃ a, Dict.get? xf q = some (.da a) ∧ ∀ ix, I ix →
      |(a.at' ix : ℝ) - y 0 q ix ((seconds now : ℝ) + n * (seconds dt : ℝ))| ≤
        Real.exp (2 * L * (n * (seconds dt : ℝ))) *
        (ν * (D 2 / 2) * (n * (seconds dt : ℝ)) * (seconds dt : ℝ) +
          (D 2 / 2 + D 3 / 3 * (n * (seconds dt : ℝ))) * (seconds dt : ℝ) ^ 2 +
          2 * D 2 * (n * (seconds dt : ℝ)) * (seconds delta : ℝ)) * w q := by
  rw [← roundedArith_id R] at h hrhs
  have main := lf_run_updating (u := 0) (fl := id) (le_refl 0) id_rounds _ hw hJ hy hD hL (le_refl (0 : Rat))
    (le_refl (0 : Rat)) (le_refl (0 : Rat)) hd hν0 hν hα0 hα implicit inProps outProps inst tid hdt hdelta hb hbu hbt n
    (le_refl (0 : Rat)) s x hnow htimes hx
    (fun i hi lfi si wi xi _ => ⟨fun h0 => absurd rfl h0, fun r t hr ht => ⟨fun h0 => absurd rfl h0, fun E hE hne => by
      rw [add_zero]
      exact hrhs i hi si xi r t E hr ht hE hne⟩⟩) h
  have hh : (0 : ℝ) ≤ (seconds dt : ℝ) := seconds_nonneg hdt
  have hd0 : (0 : ℝ) ≤ (seconds delta : ℝ) := seconds_nonneg hdelta
  have hh' : 0 ≤ seconds dt := by exact_mod_cast hh
  have hadd : lfAddedError 0 (D 2 * seconds delta) 0 0 (seconds dt) = 2 * seconds dt * (D 2 * seconds delta) := by
    unfold lfAddedError
    rw [abs_of_nonneg hh']
    simp
  rw [List.sum_map_add] at main
  simp only [zero_add, hadd, List.map_const', List.sum_replicate, List.length_range, nsmul_eq_mul, abs_of_nonneg hh'] at main
  intro q hq
  obtain ⟨a, ha, hv⟩ := main q hq
  refine ⟨a, ha, fun ix hix => le_trans (hv ix hix) ?_⟩
  have hwq : (0 : ℝ) ≤ w q := by exact_mod_cast hw q
  refine mul_le_mul_of_nonneg_right ?_ hwq
  have hL' : (0 : ℝ) ≤ L := by exact_mod_cast hL
  have hD2 : (0 : ℝ) ≤ D 2 := by exact_mod_cast hD 2
  have hD3 : (0 : ℝ) ≤ D 3 := by exact_mod_cast hD 3
  have hν0' : (0 : ℝ) ≤ ν := by exact_mod_cast hν0
  have hK : (1 + 2 * (seconds dt : ℝ) * L) ^ n ≤ Real.exp (2 * L * (n * (seconds dt : ℝ))) := by
    have h1 : 1 + 2 * (seconds dt : ℝ) * L ≤ Real.exp (2 * (seconds dt : ℝ) * L) := by
      have := Real.add_one_le_exp (2 * (seconds dt : ℝ) * L)
      linarith
    refine le_trans (pow_le_pow_left₀ (by positivity) h1 n) (le_of_eq ?_)
    rw [← Real.exp_nat_mul]
    congr 1
    ring
  obtain ⟨n, rfl⟩ : ∃ m, n = m + 1 := ⟨n - 1, by omega⟩
  have hsum : ((List.range (n + 1)).map fun i => lfStepError ν D (seconds dt) i).sum =
      D 2 / 2 * seconds dt ^ 2 + n * (ν * (D 2 / 2 * seconds dt ^ 2) + D 3 / 3 * seconds dt ^ 3) := by
    rw [List.range_succ_eq_map, List.map_cons, List.sum_cons, List.map_map]
    have : (fun i => lfStepError ν D (seconds dt) i) ∘ Nat.succ =
        fun _ => ν * (D 2 / 2 * seconds dt ^ 2) + D 3 / 3 * seconds dt ^ 3 := by
      funext i
      show lfStepError ν D (seconds dt) (i + 1) = _
      unfold lfStepError
      rw [if_neg (by omega), abs_of_nonneg hh']
    rw [this, List.map_const', List.sum_replicate, List.length_range, nsmul_eq_mul]
    unfold lfStepError
    rw [if_pos rfl, abs_of_nonneg hh']
  push_cast at hK
  rw [hsum]
  push_cast
  refine mul_le_mul hK ?_ (by positivity) (le_of_lt (Real.exp_pos _))
  have h1 : (0 : ℝ) ≤ ν * (D 2 / 2 * (seconds dt : ℝ) ^ 2) + D 3 / 3 * (seconds dt : ℝ) ^ 3 := by positivity
  nlinarith

end

/-! ## Non-vacuity -/

/-- in the second of two steps of a second, with updates every two seconds, the tendency of the first is used, twice: 7, 6.3,
5.6; with the filter the value between is unchanged -/
example : Exc.test (runOver (tsCallO (dataArrayArith Demo.reg) [] [] "" false
    (LFOver.call (dataArrayArith Demo.reg) (updatingO false (Demo.fades (dataArrayArith Demo.reg))))) (Demo.ticks 1000000)
    1000000 2 { strength := 1 / 20, alpha := 1 / 2 } ((), { delta := 2000000 }) (Demo.scalarAt 7 0)).2.2
    (fun x => Exc.test (EState.da x "T") (fun a => a.at' (fun _ => 0) == 28 / 5) &&
      Exc.test x.clock (· == 2000000)) = true := by decide +kernel

/-- a run of any number of steps without filter with updates every `delta`: an error of second order in the timestep, and of
first order in `delta` -/
example (dt delta : Int) (hdt : 0 ≤ dt) (hdelta : 0 ≤ delta) (n : Nat) (hn : 1 ≤ n) {lff : LFOver DataArray}
    {sf : Unit × UFW (Dict DataArray × Dict DataArray)} {xf : EState DataArray}
    (h : runOver (tsCallO (dataArrayArith Demo.reg) [] [] "" false
      (LFOver.call (dataArrayArith Demo.reg) (updatingO false (Demo.fades (dataArrayArith Demo.reg))))) (Demo.ticks dt)
      dt n { strength := 0, alpha := 1 / 2 } ((), { delta := delta }) (Demo.scalarAt 7 0) = (lff, sf, .ok xf)) :
    ∃ a, Dict.get? xf "T" = some (.da a) ∧ |(a.at' (fun _ => 0) : ℝ) - 7 * Real.exp (-((n * (seconds dt : ℝ)) / 10))| ≤
      Real.exp (1 / 5 * (n * (seconds dt : ℝ))) * ((7 / 200 + 7 / 3000 * (n * (seconds dt : ℝ))) * (seconds dt : ℝ) ^ 2 +
        7 / 50 * (n * (seconds dt : ℝ)) * (seconds delta : ℝ)) := by
  have hs0 : (0 : ℝ) ≤ (seconds dt : ℝ) := seconds_nonneg hdt
  have hz : ((seconds 0 : Rat) : ℝ) = 0 := by
    rw [show seconds 0 = 0 by decide +kernel]
    norm_num
  obtain ⟨a, ha, hv⟩ := lf_run_updating_exact Demo.reg (fun _ => by norm_num) (convex_Ici 0)
    (Demo.fading_smooth 2) (fun j => by positivity) (L := 1 / 10) (by norm_num) (Demo.fades_dicts _) (ν := 0) (α := 1 / 2)
    (le_refl 0) (by norm_num) (by norm_num) (by norm_num) false [] [] "" false (b := Demo.ticks dt)
    hdt hdelta
    (fun d x q hq => Demo.ticks_get dt d x (by rw [hq]; decide))
    (fun d x q a ha => by
      by_cases hq : q = "time"
      · refine ⟨a, ?_, rfl⟩
        unfold Demo.ticks EState.clock
        rw [← hq, ha]
        exact ha
      · exact ⟨a, by rw [Demo.ticks_get dt d x hq, ha], rfl⟩)
    (fun d x c hc => by
      unfold Demo.ticks
      rw [hc]
      unfold EState.clock
      rw [Dict.get?_set_self]) n hn () (Demo.scalarAt 7 0) (now := 0) rfl
    (fun i _ => by
      show (0 : ℝ) ≤ (seconds 0 : ℝ) + i * (seconds dt : ℝ)
      rw [hz]
      positivity)
    (by
      rw [hz]
      intro q hq
      obtain ⟨a, ha, hv⟩ := Demo.fading_starts q hq
      refine ⟨a, ?_, hv⟩
      cases hq
      exact ha)
    (fun i _ si xi r t E hr ht _ hne => by
      rw [← roundedArith_id] at hr ht
      have := Demo.fades_rhs (u := 0) (X := 0) (le_refl 0) id_rounds (fun h0 => absurd rfl h0) hne hr ht
      simpa using this) h "T" rfl
  refine ⟨a, ha, ?_⟩
  have := hv (fun _ => 0) rfl
  rw [hz, zero_add] at this
  unfold Demo.fading at this
  rw [pow_zero, one_mul] at this
  refine le_trans this (le_of_eq ?_)
  push_cast
  rw [show (2 * (1 / 10) * (n * (seconds dt : ℝ)) : ℝ) = 1 / 5 * (n * (seconds dt : ℝ)) by ring]
  ring

end Verif

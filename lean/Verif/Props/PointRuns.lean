import Verif.Spec.PointRuns
import Verif.Props.Forcing
/-!
# C98: runs at one point

Where the tendency of a quantity at a point is a function of its value there, a run of a time
stepper computes at that point the scheme of textbooks.
-/

namespace Verif

variable {σ τ : Type}

theorem SameHere.refl (q : String) (F : List String) (ix : String → Nat) (state : State) :
    SameHere q F ix state state := ⟨fun _ _ _ h => h, fun _ _ => rfl⟩

/-- Induction over the steps of a run. -/
theorem runSteps_induct {call : τ → σ → State → Int → τ × σ × State × Except Err (Dict DataArray × State)}
    {dt : Int} (I : Nat → τ → State → Prop)
    (hstep : ∀ i x s state x' s' st' diag new, I i x state → call x s state dt = (x', s', st', .ok (diag, new)) →
      I (i + 1) x' new) :
    ∀ (n i : Nat) (x : τ) (s : σ) (state : State) (x' : τ) (s' : σ) (final : State), I i x state →
      runSteps call dt n x s state = some (x', s', final) → I (i + n) x' final := by
  intro n
  induction n with
  | zero =>
    intro i x s state x' s' final hI h
    unfold runSteps at h
    simp only [Option.some.injEq, Prod.mk.injEq] at h
    obtain ⟨rfl, rfl, rfl⟩ := h
    exact hI
  | succ n ih =>
    intro i x s state x' s' final hI h
    unfold runSteps at h
    split at h
    · rename_i x1 s1 st1 d1 new hc
      have := ih (i + 1) x1 s1 new x' s' final (hstep i x s state x1 s1 st1 d1 new hI hc) h
      rw [Nat.add_right_comm i 1 n] at this
      exact this
    · cases h

/-- Taking over the result of a step in which `q` keeps its units and quantities without a
tendency are not touched. -/
theorem SameHere.step {q : String} {F : List String} {ix : String → Nat} {state0 state new : State}
    (h : SameHere q F ix state0 state) (hq : ∀ u, HasUnits state q u → HasUnits new q u)
    (hF : ∀ k ∈ F, Dict.get? new k = Dict.get? state k) : SameHere q F ix state0 new := by
  refine ⟨fun k hk u hu => ?_, fun k hk => ?_⟩
  · have hu' := h.units k hk u hu
    rcases hk with rfl | hk
    · exact hq u hu'
    · obtain ⟨a, ha, hau⟩ := hu'
      exact ⟨a, by rw [hF k hk]; exact ha, hau⟩
  · rw [State.val_congr (hF k hk)]
    exact h.value k hk

/-! ## AdamsBashforth -/

/-- The tendencies remembered at step `i` are those of the values of the steps before. -/
def RemembersAt (q : String) (ix : String → Nat) (g : Nat → Rat) (k i : Nat) (ab : AB) : Prop :=
  ab.order = k ∧ ab.hist.length = min i (k - 1) ∧
  ∀ j t, ab.hist.reverse[j]? = some t → q ∈ Dict.keys t ∧ tval t q ix = g (i - 1 - j)

theorem ab_point_call {R : Registry} {prog : Prog σ} {dt : Int} {q : String} {F : List String} {ix : String → Nat}
    {state0 : State} {f : Rat → Rat} (hS : ActsAs R prog dt q F ix state0 f) {k i : Nat} (hk : 1 ≤ k) {ab ab' : AB}
    {s s' : σ} {state : State} {diag : Dict DataArray} {new : State} {y : Nat → Rat}
    (hh : RemembersAt q ix (fun i => f (y i)) k i ab) (hA : SameHere q F ix state0 state)
    (hy : State.val state q ix = y i) (h : AB.call R prog ab s state dt = (ab', s', .ok (diag, new))) :
    RemembersAt q ix (fun i => f (y i)) k (i + 1) ab' ∧ (∀ u, HasUnits state q u → HasUnits new q u) ∧
      State.val new q ix = abFormula (min k (i + 1)) (y i) (seconds dt) (fun j => f (y (i - j))) := by
  obtain ⟨ho, hl, hpast⟩ := hh
  cases ab_outcome R prog ab s state dt with
  | rejected hts hc ht => rw [hc] at h; cases h
  | early e hts hc ht => rw [hc] at h; cases h
  | late t e hts ht hp hc => rw [hc] at h; cases h
  | done t r new' hts hr hconv ht hp hc =>
    rw [hc] at h
    simp only [Prod.mk.injEq, Except.ok.injEq] at h
    obtain ⟨hab, rfl, rfl, rfl⟩ := h
    have hall : ∀ j t', (ab.hist ++ [t]).reverse[j]? = some t' →
        q ∈ Dict.keys t' ∧ tval t' q ix = f (y (i - j)) := by
      intro j t' hj
      rw [List.reverse_append, List.reverse_singleton, List.singleton_append] at hj
      cases j with
      | zero =>
        simp only [List.getElem?_cons_zero, Option.some.injEq] at hj
        subst hj
        obtain ⟨e1, -, e3⟩ := hS s state r _ hA hr hconv
        exact ⟨e1, by rw [e3, hy]; rfl⟩
      | succ j =>
        rw [List.getElem?_cons_succ] at hj
        have := hpast j t' hj
        rw [show i - 1 - j = i - (j + 1) by omega] at this
        exact this
    obtain ⟨m, hm, m1, m4, hkk, hq⟩ := performStep_spec hp
    have hm' : m = min k (i + 1) := by
      rw [hm, ho, List.length_append, hl, List.length_singleton]; omega
    obtain ⟨_, c2, _⟩ := copyUntouched_spec state new'
    have hmemall : ∀ t' ∈ ab.hist ++ [t], q ∈ Dict.keys t' := by
      intro t' ht'
      rw [← List.mem_reverse] at ht'
      obtain ⟨j, hj⟩ := List.getElem?_of_mem ht'
      exact (hall j t' hj).1
    have hmem : q ∈ Dict.keys new' := by
      rw [hkk]
      by_cases h1 : m = 1
      · rw [if_pos h1]
        simp only [List.getLast?_append, List.getLast?_singleton, Option.some_or, Option.getD_some]
        exact hmemall t (by simp)
      · rw [if_neg h1]
        cases hh' : ab.hist ++ [t] with
        | nil => simp at hh'
        | cons t0 l => exact hmemall t0 (by rw [hh']; simp)
    obtain ⟨x, r', hx, hr', ha, _, hj, hval⟩ := hq q hmem
    have hn : Dict.get? (copyUntouched state new') q = some (.da r') := by rw [c2 q hmem]; exact hr'
    refine ⟨?_, ?_, ?_⟩
    · rw [← hab]
      split
      · rename_i hfull
        rw [List.length_append, List.length_singleton, hl, ho] at hfull
        refine ⟨ho, ?_, ?_⟩
        · rw [List.length_tail, List.length_append, List.length_singleton, hl]; omega
        · intro j t' hj'
          dsimp only at hj'
          have hjl : j < (ab.hist ++ [t]).tail.reverse.length := by
            by_contra hcon
            rw [List.getElem?_eq_none (Nat.le_of_not_lt hcon)] at hj'; cases hj'
          have := hall j t' ?_
          · rw [show i + 1 - 1 - j = i - j by omega]; exact this
          · rw [← hj']
            have he : ab.hist ++ [t] = (ab.hist ++ [t]).head (by simp) :: (ab.hist ++ [t]).tail := by
              rw [List.cons_head_tail]
            conv_lhs => rw [he]
            rw [List.reverse_cons, List.getElem?_append_left hjl]
      · rename_i hfull
        rw [List.length_append, List.length_singleton, hl, ho] at hfull
        refine ⟨ho, ?_, ?_⟩
        · rw [List.length_append, List.length_singleton, hl]; omega
        · intro j t' hj'
          rw [show i + 1 - 1 - j = i - j by omega]; exact hall j t' hj'
    · rintro u ⟨x', hx', hux⟩
      rw [hx] at hx'; cases hx'
      exact ⟨r', hn, by rw [ha]; exact hux⟩
    · rw [State.val_of_get hx] at hy
      rw [State.val_of_get hn, hval ix, ← hm', hy]
      refine abFormula_congr fun j hj' => ?_
      have hjl : j < (ab.hist ++ [t]).reverse.length := by
        rw [List.length_reverse]
        have : m ≤ (ab.hist ++ [t]).length := by rw [hm]; exact Nat.min_le_right _ _
        omega
      have hg : (ab.hist ++ [t]).reverse[j]? = some ((ab.hist ++ [t]).reverse.getD j []) := by
        rw [List.getD_eq_getElem?_getD, List.getElem?_eq_getElem hjl]; rfl
      exact (hall j _ hg).2

/-- **C98, AdamsBashforth** of any order, through `TendencyStepper.__call__`: from a new
stepper, after `n` steps the value at the point is that of the scheme. -/
theorem ab_point_run {R : Registry} {prog : Prog σ} {dt : Int} {q : String} {F : List String} {ix : String → Nat}
    {state : State} {f : Rat → Rat} (hS : ActsAs R prog dt q F ix state f) {inProps outProps : PropDict}
    {inst : String} {tid : Bool} (k : Int) (ab : AB) (hk : AB.make k = .ok ab) (y : Nat → Rat)
    (hy : IsAdamsBashforth ab.order (seconds dt) f y) (h0 : y 0 = State.val state q ix) (n : Nat) (s s' : σ)
    (final : State) (ab' : AB)
    (h : runSteps (tsCall R inProps outProps inst tid (abCall R prog)) dt n ab s state = some (ab', s', final)) :
    State.val final q ix = y n ∧ SameHere q F ix state final := by
  obtain ⟨k1, -, -, hnil⟩ := AB.make_order hk
  have := runSteps_induct (fun i (x : AB) (st : State) =>
      RemembersAt q ix (fun i => f (y i)) ab.order i x ∧ State.val st q ix = y i ∧ SameHere q F ix state st)
    (fun i x s st x' s' st' diag new hI hc => by
      obtain ⟨hI1, hI2, hI3⟩ := hI
      obtain ⟨⟨d, o⟩, ho, _, hst⟩ := tsCall_state hc
      unfold abCall at ho
      simp only [Prod.mk.injEq] at ho
      obtain ⟨h1, h2, rfl, h3⟩ := ho
      have hcall : AB.call R prog x s st dt = (x', s', .ok (d, o)) := Prod.ext h1 (Prod.ext h2 h3)
      obtain ⟨e1, e2, e3⟩ := ab_point_call hS k1 hI1 hI3 hI2 hcall
      obtain ⟨r, hr, _, hkeys, _, hun⟩ := ab_untouched h3
      have hg := hst (fun q hq => (hkeys q).2 hq)
      refine ⟨e1, ?_, hI3.step ?_ ?_⟩
      · rw [State.val_congr (hg q), e3, hy i]
      · intro u hu
        obtain ⟨a, ha, hau⟩ := e2 u hu
        exact ⟨a, by rw [hg]; exact ha, hau⟩
      · intro j hj
        rw [hg]
        refine hun j ?_
        cases ab_outcome R prog x s st dt with
        | rejected hts hc ht => rw [hc] at h3; cases h3
        | early e hts hc ht => rw [hc] at h3; cases h3
        | late t e hts ht hp hc => rw [hc] at h3; cases h3
        | done t r' new' hts hr' hconv ht hp hc =>
          rw [hr] at hr'; cases hr'
          rw [← (convertTendencies_ok hconv).1]
          exact (hS s st r t hI3 hr hconv).2.1 j hj)
    n 0 ab s state ab' s' final
    ⟨⟨rfl, by rw [hnil]; simp, fun j t hj => by rw [hnil] at hj; cases hj⟩, h0.symm, SameHere.refl q F ix state⟩ h
  rw [Nat.zero_add] at this
  exact this.2

/-! ## Leapfrog -/

theorem lfTendency_some {R : Registry} {prog : Prog σ} {lf : LF} {s : σ} {state : State} {dt : Int} {t : Dict DataArray}
    (h : lfTendency R prog lf s state dt = some t) :
    ∃ r, (prog s state dt).2 = .ok r ∧ convertTendencies R state r.1 = .ok t := by
  unfold lfTendency abTendency at h
  split at h
  · cases hr : (prog s state dt).2 with
    | error e => rw [hr] at h; cases h
    | ok r =>
      rw [hr] at h
      dsimp only at h
      cases hcv : convertTendencies R state r.1 with
      | error e => rw [hcv] at h; cases h
      | ok t' =>
        rw [hcv] at h
        injection h with h; subst h
        exact ⟨r, rfl, hcv⟩
  · cases h

/-- The state remembered at step `i` is the filtered one of the step before. -/
def OneStepBehind (q : String) (ix : String → Nat) (u : String) (x : Nat → Rat) (i : Nat) (lf : LF) : Prop :=
  match i with
  | 0 => lf.old = none
  | i + 1 => ∃ old, lf.old = some old ∧ HasUnits old q u ∧ State.val old q ix = x (i + 1)

/-- **C98, Leapfrog** with any filter. -/
theorem lf_point_run {R : Registry} {prog : Prog σ} (hd : prog.Dicts) {dt : Int} {q u : String} {F : List String}
    {ix : String → Nat} {state : State} {f : Rat → Rat} (hS : ActsAs R prog dt q F ix state f) (hu : HasUnits state q u)
    {inProps outProps : PropDict} {inst : String} {tid : Bool} (ν α : Rat) (x y : Nat → Rat)
    (hxy : IsLeapfrog ν α (seconds dt) f x y) (h0 : y 0 = State.val state q ix) (n : Nat) (s s' : σ) (final : State)
    (lf' : LF)
    (h : runSteps (tsCall R inProps outProps inst tid (LF.call R prog)) dt n { strength := ν, alpha := α } s state =
      some (lf', s', final)) :
    State.val final q ix = y n ∧ SameHere q F ix state final := by
  have := runSteps_induct (fun i (lf : LF) (st : State) =>
      (lf.strength = ν ∧ lf.alpha = α) ∧ OneStepBehind q ix u x i lf ∧ State.val st q ix = y i ∧
        SameHere q F ix state st)
    (fun i lf s st lf' s' st' diag new hI hc => by
      obtain ⟨⟨rfl, rfl⟩, hI1, hI2, hI3⟩ := hI
      obtain ⟨⟨d, o⟩, ho, _, hst⟩ := tsCall_state hc
      obtain ⟨r, hr, _, hkeys, hkeys', _, hun⟩ := lf_untouched hd ho
      have hg := hst (fun q hq => (hkeys q).2 ((hkeys' q).1 hq))
      have hux : HasUnits st q u := hI3.units q (.inl rfl) u hu
      have hF : ∀ t, lfTendency R prog lf s st dt = some t → (q ∈ Dict.keys t ∧ tval t q ix = f (y i)) ∧
          ∀ k ∈ F, Dict.get? new k = Dict.get? st k := by
        intro t ht
        obtain ⟨r', hr', hconv⟩ := lfTendency_some ht
        rw [hr] at hr'; cases hr'
        obtain ⟨e1, e2, e3⟩ := hS s st r t hI3 hr hconv
        refine ⟨⟨e1, by rw [e3, hI2]⟩, fun k hk => ?_⟩
        rw [hg]
        refine (hun k ?_).1
        rw [← (convertTendencies_ok hconv).1]
        exact e2 k hk
      cases i with
      | zero =>
        obtain ⟨rfl, hlf, t, ht, hst1⟩ := leapfrog_first_call ho hI1
        obtain ⟨⟨hq, htv⟩, hF⟩ := hF t ht
        obtain ⟨a, b, ha, hb, hab, hval⟩ := hst1 q hq
        have hnew : Dict.get? new q = some (.da b) := by rw [hg]; exact hb
        refine ⟨by rw [hlf]; exact ⟨rfl, rfl⟩, ⟨st', by rw [hlf], hux, ?_⟩, ?_, hI3.step ?_ hF⟩
        · rw [hI2, hxy.first.1]
        · rw [State.val_of_get ha] at hI2
          rw [State.val_of_get hnew, hval ix, htv, hI2, hxy.first.2]
        · rintro w ⟨a', ha', hw⟩
          rw [ha] at ha'; cases ha'
          exact ⟨b, hnew, by rw [hab]; exact hw⟩
      | succ i =>
        obtain ⟨old, hold, huo, hxo⟩ := hI1
        obtain ⟨hlf, t, ht, hst1⟩ := leapfrog_later_call hd ho hold
        obtain ⟨⟨hq, htv⟩, hF⟩ := hF t ht
        obtain ⟨a, b, b', m, ha, hb, hb', hm, hab, _, hma, hval⟩ := hst1 q hq
        have hnew : Dict.get? new q = some (.da m) := by rw [hg]; exact hm
        obtain ⟨a', ha', hua⟩ := huo
        rw [ha] at ha'; cases ha'
        obtain ⟨b0, hb0, hub⟩ := hux
        rw [hb] at hb0; cases hb0
        rw [State.val_of_get hb] at hI2
        rw [State.val_of_get ha] at hxo
        obtain ⟨v1, v2, -⟩ := hval ix
        obtain ⟨l1, l2⟩ := hxy.later (i + 1) (by omega)
        rw [htv, hI2, hxo] at v1 v2
        refine ⟨by rw [hlf]; exact ⟨rfl, rfl⟩, ⟨st', by rw [hlf], ⟨b', hb', by rw [hab]; exact hub⟩, ?_⟩, ?_,
          hI3.step ?_ hF⟩
        · rw [State.val_of_get hb', v1, l1]
        · rw [State.val_of_get hnew, v2, l2]; ring
        · rintro w ⟨a', ha', hw⟩
          rw [hb] at ha'; cases ha'
          rw [hub] at hw; cases hw
          exact ⟨m, hnew, by rw [hma]; exact hua⟩)
    n 0 { strength := ν, alpha := α } s state lf' s' final
    ⟨⟨rfl, rfl⟩, (rfl : ({ strength := ν, alpha := α } : LF).old = none), h0.symm, SameHere.refl q F ix state⟩ h
  rw [Nat.zero_add] at this
  exact this.2.2

/-! ## SSPRungeKutta -/

/-- **C98, SSPRungeKutta** with two or three stages. -/
theorem ssprk_point_run {R : Registry} {prog : Prog σ} (hd : prog.Dicts) {dt : Int} {q : String} {F : List String}
    {ix : String → Nat} {state : State} {f : Rat → Rat} (hS : ActsAs R prog dt q F ix state f)
    {inProps outProps : PropDict} {inst : String} {tid : Bool} (three : Bool) (n : Nat) (s s' : σ) (final : State)
    (ab' : AB) (hnd : (Dict.keys state).Nodup) (hT : state.TimeOk)
    (h : runSteps (tsCall R inProps outProps inst tid (sspCall R prog three)) dt n { order := 1 } s state =
      some (ab', s', final)) :
    State.val final q ix = (rkStep three (seconds dt) f)^[n] (State.val state q ix) ∧ SameHere q F ix state final := by
  have := runSteps_induct (fun i (ab : AB) (st : State) =>
      (ab.order = 1 ∧ (Dict.keys st).Nodup ∧ st.TimeOk) ∧
        State.val st q ix = (rkStep three (seconds dt) f)^[i] (State.val state q ix) ∧ SameHere q F ix state st)
    (fun i x s st x' s' st' diag new hI hc => by
      obtain ⟨⟨hord, hnd, hT⟩, hv, hI3⟩ := hI
      obtain ⟨⟨d, o⟩, ho, rfl⟩ := tsCall_new hc
      unfold sspCall at ho
      simp only [Prod.mk.injEq] at ho
      obtain ⟨h1, h2, rfl, h3⟩ := ho
      have hcall : ssprkCall R prog three x s st dt = (x', s', .ok (d, o)) := Prod.ext h1 (Prod.ext h2 h3)
      have S := ssprkCall_spec hd hord hnd hT hcall
      obtain ⟨c1, c2, c3⟩ := copyUntouched_spec st o
      have hget : ∀ p, Dict.get? (copyUntouched st o) p = Dict.get? o p := by
        intro p
        by_cases hp : p ∈ Dict.keys o
        · exact c2 p hp
        · rw [c3 p hp, (Dict.get?_eq_none_iff _ _).2 hp,
            (Dict.get?_eq_none_iff _ _).2 (fun h => hp ((S.keys p).2 h))]
      obtain ⟨Y, K, W, D, hY0, _, _, _, hst, hattr, hout⟩ := S.step
      have hunits : ∀ {st2 : State}, SameAttrs st st2 → ∀ k u, HasUnits st k u → HasUnits st2 k u :=
        fun ha k u hu => hu.of_sameAttrs ha
      -- the stages
      have hK : ∀ i, i < (if three then shuOsher else heun).stages →
          (∀ k ∈ F, tval (K i) k ix = 0) ∧ tval (K i) q ix = f (State.val (Y i) q ix) := by
        intro i
        induction i using Nat.strongRecOn with
        | ind i ih =>
          intro hi
          obtain ⟨⟨r, hr, hcv, _⟩, _, _, hat, hyv⟩ := hst i hi
          have hsame : SameHere q F ix state (Y i) := by
            refine ⟨fun k hk u hu => hunits hat k u (hI3.units k hk u hu), fun k hk => ?_⟩
            rw [hyv k ix, ← hI3.value k hk]
            have : ((List.range i).map fun j => (if three then shuOsher else heun).a i j * tval (K j) k ix).sum = 0 := by
              apply List.sum_eq_zero
              intro v hv
              obtain ⟨j, hj, rfl⟩ := List.mem_map.1 hv
              rw [List.mem_range] at hj
              rw [(ih j hj (by omega)).1 k hk, mul_zero]
            rw [this, mul_zero, add_zero]
          obtain ⟨e1, e2, e3⟩ := hS (W i) (Y i) r (K i) hsame (by rw [hr]) hcv
          exact ⟨fun k hk => tval_of_not_mem (e2 k hk) ix, e3⟩
      have hnew : SameHere q F ix state (copyUntouched st o) := by
        refine ⟨fun k hk u hu => ?_, fun k hk => ?_⟩
        · obtain ⟨a, ha, hau⟩ := hunits hattr k u (hI3.units k hk u hu)
          exact ⟨a, by rw [hget]; exact ha, hau⟩
        · rw [State.val_congr (hget k), hout k ix, ← hI3.value k hk]
          have : ((List.range (if three then shuOsher else heun).stages).map
              fun j => (if three then shuOsher else heun).b j * tval (K j) k ix).sum = 0 := by
            apply List.sum_eq_zero
            intro v hv
            obtain ⟨j, hj, rfl⟩ := List.mem_map.1 hv
            rw [List.mem_range] at hj
            rw [(hK j hj).1 k hk, mul_zero]
          rw [this, mul_zero, add_zero]
      refine ⟨⟨(ssprk_order hcall).trans hord, nodup_copyUntouched _ _ S.nodup,
        TimeOk.congr ((hget "time").trans S.time) hT⟩, ?_, hnew⟩
      rw [State.val_congr (hget q), Function.iterate_succ_apply', ← hv, hout q ix]
      cases three with
      | true =>
        have k0 := (hK 0 (by show 0 < 3; omega)).2
        have k1 := (hK 1 (by show 1 < 3; omega)).2
        have k2 := (hK 2 (by show 2 < 3; omega)).2
        have y1 := (hst 1 (by show 1 < 3; omega)).2.2.2.2 q ix
        have y2 := (hst 2 (by show 2 < 3; omega)).2.2.2.2 q ix
        simp [List.range_succ, shuOsher] at y1 y2
        rw [hY0] at k0
        rw [k0] at y1 y2
        rw [y1] at k1
        rw [k1] at y2
        rw [y2] at k2
        simp only [if_true, shuOsher, List.range_succ, List.range_zero, List.nil_append, List.map_cons, List.map_nil,
          List.sum_cons, List.sum_nil, List.cons_append, rkStep]
        rw [k0, k1, k2]
        simp
        generalize hb : f (State.val st q ix + seconds dt * f (State.val st q ix)) = B
        rw [show State.val st q ix + seconds dt * (f (State.val st q ix) + B) / 4 =
          State.val st q ix + seconds dt * (4⁻¹ * f (State.val st q ix) + 4⁻¹ * B) by ring]
        ring
      | false =>
        have k0 := (hK 0 (by show 0 < 2; omega)).2
        have k1 := (hK 1 (by show 1 < 2; omega)).2
        have y1 := (hst 1 (by show 1 < 2; omega)).2.2.2.2 q ix
        simp [List.range_succ, heun] at y1
        rw [hY0] at k0
        rw [k0] at y1
        rw [y1] at k1
        simp only [Bool.false_eq_true, if_false, heun, List.range_succ, List.range_zero, List.nil_append, List.map_cons,
          List.map_nil, List.sum_cons, List.sum_nil, List.cons_append, rkStep]
        rw [k0, k1]
        ring)
    n 0 _ s state ab' s' final ⟨⟨rfl, hnd, hT⟩, rfl, SameHere.refl q F ix state⟩ h
  rw [Nat.zero_add] at this
  exact this.2

end Verif

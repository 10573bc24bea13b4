import Verif.Spec.UpdateRuns
import Verif.Props.Nested
import Verif.Props.ContinuedRuns
/-!
# C107: components in UpdateFrequencyWrappers during runs
-/

namespace Verif

/-! ## One call of a wrapper -/

section
variable {σ : Type} {c : Comp σ} (hc : c.Plain) {i : Nat} {s : σ} {m : Caches} {state : State} {t : Int}
  (ht : State.time state = .ok t) (dt : Int)
include hc

theorem runComponent_plain : runComponent c.python s state (some dt) = implicitCall c state dt s := by
  have := hc.one
  unfold runComponent Comp.python implicitCall
  dsimp only
  cases h1 : isInstance .implicit c.obj <;> cases h2 : isInstance .tendency c.obj <;> rw [h1, h2] at this
  · exact absurd rfl this
  · simp only [Bool.false_eq_true, if_false, if_true]
  · simp only [Bool.false_eq_true, if_false, if_true]
    rcases c.callI s state dt with ⟨s1, e | o⟩
    · cases e <;> rfl
    · rfl
  · exact absurd rfl this

theorem implicitCall_updating (w : σ × Caches) :
    implicitCall (c.updating i) state dt w = updateCall i c w state (some dt) := by
  have : isInstance .implicit (c.updating i).obj = true :=
    (wrapObj_kinds _ _ updateObj_own .implicit).2 ((interface_unique hc.attrs).2 (.inr ⟨.inl rfl, .inr rfl⟩))
  unfold implicitCall
  rw [if_pos this]
  rfl

include ht

/-- A call that is due. -/
theorem update_due (hdue : (m i).last = none ∨ ∃ l, (m i).last = some l ∧ l + (m i).delta ≤ t) :
    implicitCall (c.updating i) state dt (s, m) =
      (((implicitCall c state dt s).1, fun j => if j = i then
          (match (implicitCall c state dt s).2 with
            | .ok o => { delta := (m i).delta, cached := some o, last := some t }
            | .error _ => m i) else m j),
        (implicitCall c state dt s).2) := by
  rw [implicitCall_updating hc]
  have hcall : (m i).call State.time c.python s state (some dt) = (m i).refresh State.time c.python s state (some dt) := by
    unfold UFW.call
    rcases hdue with h | ⟨l, h, hl⟩
    · rw [h]
    · rw [h]
      dsimp only
      rw [ht]
      dsimp only
      rw [if_pos (by omega)]
  unfold updateCall
  dsimp only
  rw [hcall]
  unfold UFW.refresh
  rw [runComponent_plain hc, ht]
  rcases implicitCall c state dt s with ⟨s1, e | o⟩ <;> rfl

/-- A call that is not due. -/
theorem update_kept {l : Int} {o : TendOut} (hl : (m i).last = some l) (hn : t < l + (m i).delta) (ho : (m i).cached = some o) :
    implicitCall (c.updating i) state dt (s, m) = ((s, m), .ok o) := by
  rw [implicitCall_updating hc]
  have hcall : (m i).call State.time c.python s state (some dt) = (m i, s, .ok (some o)) := by
    unfold UFW.call
    rw [hl]
    dsimp only
    rw [ht]
    dsimp only
    rw [if_neg (by omega), ho]
  unfold updateCall
  dsimp only
  rw [hcall]
  refine Prod.ext (Prod.ext rfl (funext fun j => ?_)) rfl
  dsimp only
  split
  · rename_i e; rw [e]
  · rfl

end

theorem implicitCall_beside {σ : Type} (c : Comp σ) (state : State) (dt : Int) (w : σ × Caches) :
    implicitCall c.beside state dt w = (((implicitCall c state dt w.1).1, w.2), (implicitCall c state dt w.1).2) := by
  unfold implicitCall Comp.beside
  dsimp only
  split
  · rfl
  · split <;> rfl

/-! ## All components once -/

/-- The calls of all wrappers from position `i` are due at time `t`. -/
def DueFrom (i : Nat) (m : Caches) (t : Int) : Prop :=
  ∀ j, i ≤ j → (m j).last = none ∨ ∃ l, (m j).last = some l ∧ l + (m j).delta ≤ t

/-- Nothing but calls at time `t` between the memories `m` and `m'`. -/
def CalledAt (t : Int) (m m' : Caches) : Prop :=
  ∀ j, (m' j).delta = (m j).delta ∧ ((m' j).last = (m j).last ∨ (m' j).last = some t)

theorem CalledAt.refl (t : Int) (m : Caches) : CalledAt t m m := fun _ => ⟨rfl, .inl rfl⟩

theorem CalledAt.trans {t : Int} {m m' m'' : Caches} (h : CalledAt t m m') (h' : CalledAt t m' m'') : CalledAt t m m'' := by
  intro j
  obtain ⟨a1, a2⟩ := h j
  obtain ⟨b1, b2⟩ := h' j
  refine ⟨b1.trans a1, ?_⟩
  rcases b2 with b2 | b2
  · rw [b2]; exact a2
  · exact .inr b2

/-- Loops over components that return the same go on alike. -/
theorem compositeLoop_cons {σ : Type} (R : Registry) (f : σ → σ × Except Err TendOut) (fs : List (σ → σ × Except Err TendOut))
    (s : σ) (td dd : Dict DataArray) :
    compositeLoop R (f :: fs) s td dd = match (f s).2 with
      | .error e => ((f s).1, .error e)
      | .ok r => match addInto R r.1 td with
        | .error e => ((f s).1, .error e)
        | .ok t' => compositeLoop R fs (f s).1 t' (dd.update r.2) := rfl

section
variable {σ : Type} (R : Registry) {state : State} {t : Int} (ht : State.time state = .ok t) (dt : Int)
include ht

theorem composite_due : ∀ (cs : List (Bool × Comp σ)), (∀ c ∈ cs, c.2.Plain) → ∀ (i : Nat) (s : σ) (m : Caches)
    (td dd : Dict DataArray), DueFrom i m t →
    let p := compositeLoop R ((updatingFrom i cs).map fun c => implicitCall c state dt) (s, m) td dd
    let q := compositeLoop R ((cs.map Prod.snd).map fun c => implicitCall c state dt) s td dd
    p.2 = q.2 ∧ p.1.1 = q.1 ∧ CalledAt t m p.1.2 := by
  intro cs
  induction cs with
  | nil => exact fun _ i s m td dd _ => ⟨rfl, rfl, CalledAt.refl _ _⟩
  | cons bc cs ih =>
    intro hp i s m td dd hdue
    obtain ⟨b, c⟩ := bc
    have hc : c.Plain := hp _ List.mem_cons_self
    have hone : ∃ m1, implicitCall (if b then c.updating i else c.beside) state dt (s, m) =
        (((implicitCall c state dt s).1, m1), (implicitCall c state dt s).2) ∧ CalledAt t m m1 ∧
        ∀ j, i + 1 ≤ j → m1 j = m j := by
      cases b with
      | true =>
        refine ⟨_, update_due hc ht dt (hdue i (Nat.le_refl i)), fun j => ?_, fun j hj => ?_⟩
        · dsimp only
          split
          · rename_i e
            subst e
            rcases (implicitCall c state dt s).2 with e | o
            · exact ⟨rfl, .inl rfl⟩
            · exact ⟨rfl, .inr rfl⟩
          · exact ⟨rfl, .inl rfl⟩
        · rw [if_neg (by omega)]
      | false => exact ⟨m, implicitCall_beside c state dt (s, m), CalledAt.refl _ _, fun _ _ => rfl⟩
    obtain ⟨m1, e1, h1, h2⟩ := hone
    simp only [updatingFrom, List.map_cons]
    rw [compositeLoop_cons, compositeLoop_cons, e1]
    dsimp only
    cases (implicitCall c state dt s).2 with
    | error e => exact ⟨rfl, rfl, h1⟩
    | ok r =>
      dsimp only
      cases addInto R r.1 td with
      | error e => exact ⟨rfl, rfl, h1⟩
      | ok t' =>
        obtain ⟨g1, g2, g3⟩ := ih (fun c' h => hp c' (List.mem_cons_of_mem _ h)) (i + 1) (implicitCall c state dt s).1 m1 t'
          (dd.update r.2) (fun j hj => by rw [h2 j hj]; exact hdue j (by omega))
        exact ⟨g1, g2, h1.trans g3⟩

/-- What all components give if those in wrappers are given earlier states. -/
theorem composite_held (src : Nat → State) : ∀ (cs : List (Bool × Comp σ)), (∀ c ∈ cs, c.2.Plain ∧ c.2.Forgetful) →
    ∀ (i : Nat) (s s0 : σ) (m : Caches) (td dd : Dict DataArray),
    (∀ j c, i ≤ j → cs[j - i]? = some (true, c) →
      (((m j).last = none ∨ ∃ l, (m j).last = some l ∧ l + (m j).delta ≤ t) ∧ src j = state) ∨
      (∃ l o, (m j).last = some l ∧ t < l + (m j).delta ∧ (m j).cached = some o ∧
        ∀ s, (implicitCall c (src j) dt s).2 = .ok o)) →
    let p := compositeLoop R ((updatingFrom i cs).map fun c => implicitCall c state dt) (s, m) td dd
    let q := compositeLoop R ((givenFrom src i cs).map fun c => implicitCall c state dt) s0 td dd
    p.2 = q.2 ∧ (∀ j, j < i → p.1.2 j = m j) ∧
      ∀ r, p.2 = .ok r → ∀ j c, i ≤ j → cs[j - i]? = some (true, c) →
        (p.1.2 j).delta = (m j).delta ∧ (∃ o, (p.1.2 j).cached = some o ∧ ∀ s, (implicitCall c (src j) dt s).2 = .ok o) ∧
        ((((m j).last = none ∨ ∃ l, (m j).last = some l ∧ l + (m j).delta ≤ t) ∧ (p.1.2 j).last = some t) ∨
          ∃ l, (m j).last = some l ∧ t < l + (m j).delta ∧ (p.1.2 j).last = some l) := by
  intro cs
  induction cs with
  | nil => exact fun _ i s s0 m td dd _ => ⟨rfl, fun _ _ => rfl, fun r _ j c _ h => by cases h⟩
  | cons bc cs ih =>
    intro hp i s s0 m td dd hm
    obtain ⟨b, c⟩ := bc
    obtain ⟨hc, hf⟩ := hp _ List.mem_cons_self
    have hgiven : ∀ s, implicitCall (c.given (src i)) state dt s = implicitCall c (src i) dt s := fun _ => rfl
    have hone : ∃ s1 m1, implicitCall (if b then c.updating i else c.beside) state dt (s, m) =
          ((s1, m1), (implicitCall (if b then c.given (src i) else c) state dt s0).2) ∧
        (∀ j, j ≠ i → m1 j = m j) ∧
        ∀ r, (implicitCall (if b then c.given (src i) else c) state dt s0).2 = .ok r → b = true →
        (m1 i).delta = (m i).delta ∧ (∃ o, (m1 i).cached = some o ∧ ∀ s, (implicitCall c (src i) dt s).2 = .ok o) ∧
        ((((m i).last = none ∨ ∃ l, (m i).last = some l ∧ l + (m i).delta ≤ t) ∧ (m1 i).last = some t) ∨
          ∃ l, (m i).last = some l ∧ t < l + (m i).delta ∧ (m1 i).last = some l) := by
      cases b with
      | false =>
        refine ⟨(implicitCall c state dt s).1, m, ?_, fun _ _ => rfl, fun _ _ h => (by cases h)⟩
        simp only [Bool.false_eq_true, if_false]
        rw [implicitCall_beside, hf s s0 state dt]
      | true =>
        simp only [if_true]
        rcases hm i c (Nat.le_refl i) (by rw [Nat.sub_self]; rfl) with ⟨hd, hsrc⟩ | ⟨l, o, h1, h2, h3, h4⟩
        · refine ⟨(implicitCall c state dt s).1, fun j => if j = i then
            (match (implicitCall c state dt s).2 with
              | .ok o => { delta := (m i).delta, cached := some o, last := some t }
              | .error _ => m i) else m j, ?_, fun j hj => ?_, fun r hr _ => ?_⟩
          · rw [update_due hc ht dt hd, hgiven, hsrc, hf s0 s state dt]
          · dsimp only
            rw [if_neg hj]
          · rw [hgiven, hsrc] at hr
            dsimp only
            rw [if_pos rfl, hf s s0 state dt, hr]
            exact ⟨rfl, ⟨r, rfl, fun s' => by rw [hsrc, hf s' s0 state dt, hr]⟩, .inl ⟨hd, rfl⟩⟩
        · refine ⟨s, m, ?_, fun _ _ => rfl, fun r hr _ => ⟨rfl, ⟨o, h3, h4⟩, .inr ⟨l, h1, h2, h1⟩⟩⟩
          rw [update_kept hc ht dt h1 h2 h3, hgiven, h4]
    obtain ⟨s1, m1, e1, h1, h2⟩ := hone
    simp only [updatingFrom, givenFrom, List.map_cons]
    rw [compositeLoop_cons, compositeLoop_cons, e1]
    dsimp only
    generalize hx : implicitCall (if b then c.given (src i) else c) state dt s0 = x at h2 ⊢
    obtain ⟨s2, e | r⟩ := x
    · exact ⟨rfl, fun j hj => h1 j (by omega), fun r h => by cases h⟩
    · dsimp only
      cases addInto R r.1 td with
      | error e => exact ⟨rfl, fun j hj => h1 j (by omega), fun r h => by cases h⟩
      | ok t' =>
        have hm1 : ∀ j, i + 1 ≤ j → m1 j = m j := fun j hj => h1 j (by omega)
        have hidx : ∀ j c', i + 1 ≤ j → (cs[j - (i + 1)]? = some (true, c') ↔ ((b, c) :: cs)[j - i]? = some (true, c')) := by
          intro j c' hj
          rw [show j - i = (j - (i + 1)) + 1 by omega, List.getElem?_cons_succ]
        obtain ⟨g1, g2, g3⟩ := ih (fun c' h => hp c' (List.mem_cons_of_mem _ h)) (i + 1) s1 s2 m1 t' (dd.update r.2)
          (fun j c' hj hjc => by
            rw [hm1 j hj]
            exact hm j c' (by omega) ((hidx j c' hj).1 hjc))
        refine ⟨g1, fun j hj => (g2 j (by omega)).trans (h1 j (by omega)), fun r' hr' j c' hj hjc => ?_⟩
        by_cases hji : j = i
        · subst hji
          rw [Nat.sub_self] at hjc
          have hjc' : (b, c) = (true, c') := Option.some.inj hjc
          cases hjc'
          rw [g2 j (by omega)]
          exact h2 r rfl rfl
        · have := g3 r' hr' j c' (by omega) ((hidx j c' (by omega)).2 hjc)
          rw [hm1 j (by omega)] at this
          exact this

end

/-! ## Time steppers that call their components once a step -/

/-- One call of the components a step, on the state of the step, and nothing else is known of them. -/
structure CallsOnce {τ : Type} (call : ∀ {σ : Type}, Prog σ → τ → σ → State → Int →
    τ × σ × State × Except Err (Dict DataArray × State)) : Prop where
  same : ∀ {σ σ' : Type} (p : Prog σ) (p' : Prog σ') (x : τ) (w : σ) (w' : σ') (state : State) (dt : Int),
    (p w state dt).2 = (p' w' state dt).2 →
      (call p x w state dt).1 = (call p' x w' state dt).1 ∧ (call p x w state dt).2.2 = (call p' x w' state dt).2.2
  ran : ∀ {σ : Type} (p : Prog σ) (x : τ) (w : σ) (state : State) (dt : Int) (o : Dict DataArray × State),
    (call p x w state dt).2.2.2 = .ok o → (call p x w state dt).2.1 = (p w state dt).1 ∧ ∃ r, (p w state dt).2 = .ok r

theorem ab_callsOnce (R : Registry) : CallsOnce (fun {_} p => abCall R p) where
  same := fun p p' ab w w' state dt h => by
    unfold abCall AB.call
    rw [h]
    by_cases hts : ab.timestep = none ∨ ab.timestep = some dt
    · simp only [if_pos hts]
      rcases (p' w' state dt).2 with e | r
      · exact ⟨rfl, rfl⟩
      · dsimp only
        rcases convertTendencies R state r.1 with e | t
        · exact ⟨rfl, rfl⟩
        · dsimp only
          rcases performStep ab.order (ab.hist ++ [t]) state dt with e | new
          · exact ⟨rfl, rfl⟩
          · exact ⟨rfl, rfl⟩
    · simp only [if_neg hts]
      trivial
  ran := fun p ab w state dt o => by
    unfold abCall AB.call
    by_cases hts : ab.timestep = none ∨ ab.timestep = some dt
    · simp only [if_pos hts]
      rcases (p w state dt).2 with e | r
      · intro h; cases h
      · dsimp only
        rcases convertTendencies R state r.1 with e | t
        · intro h; cases h
        · dsimp only
          rcases performStep ab.order (ab.hist ++ [t]) state dt with e | new
          · intro h; cases h
          · exact fun _ => ⟨rfl, r, rfl⟩
    · simp only [if_neg hts]
      intro h
      cases h

theorem lf_callsOnce (R : Registry) : CallsOnce (fun {_} p => LF.call R p) where
  same := fun p p' lf w w' state dt h => by
    unfold LF.call
    rw [h]
    by_cases hts : lf.timestep = none ∨ lf.timestep = some dt
    · simp only [if_pos hts]
      rcases (p' w' state dt).2 with e | r
      · exact ⟨rfl, rfl⟩
      · dsimp only
        rcases convertTendencies R state r.1 with e | t
        · exact ⟨rfl, rfl⟩
        · dsimp only
          rcases lf.old with _ | old
          · dsimp only
            rcases stepEuler state t dt with e | new
            · exact ⟨rfl, rfl⟩
            · exact ⟨rfl, rfl⟩
          · dsimp only
            rcases stepLeapfrog lf.strength lf.alpha old t dt t.keys state [] with ⟨st, e | new⟩
            · exact ⟨rfl, rfl⟩
            · exact ⟨rfl, rfl⟩
    · simp only [if_neg hts]
      trivial
  ran := fun p lf w state dt o => by
    unfold LF.call
    by_cases hts : lf.timestep = none ∨ lf.timestep = some dt
    · simp only [if_pos hts]
      rcases (p w state dt).2 with e | r
      · intro h; cases h
      · dsimp only
        rcases convertTendencies R state r.1 with e | t
        · intro h; cases h
        · dsimp only
          rcases lf.old with _ | old
          · dsimp only
            rcases stepEuler state t dt with e | new
            · intro h; cases h
            · exact fun _ => ⟨rfl, r, rfl⟩
          · dsimp only
            rcases stepLeapfrog lf.strength lf.alpha old t dt t.keys state [] with ⟨st, e | new⟩
            · intro h; cases h
            · exact fun _ => ⟨rfl, r, rfl⟩
    · simp only [if_neg hts]
      intro h
      cases h

section
variable {τ : Type} {call : ∀ {σ : Type}, Prog σ → τ → σ → State → Int → τ × σ × State × Except Err (Dict DataArray × State)}

theorem CallsOnce.stepper (h : CallsOnce call) (R : Registry) (inP outP : PropDict) (inst : String) (tid : Bool) :
    CallsOnce (fun {_} p => tsCall R inP outP inst tid (call p)) where
  same := fun p p' x w w' state dt hp => by
    obtain ⟨h1, h2⟩ := h.same p p' x w w' state dt hp
    unfold tsCall
    dsimp only
    rw [h1, h2]
    exact ⟨rfl, rfl⟩
  ran := fun p x w state dt o ho => by
    unfold tsCall at ho ⊢
    dsimp only at ho ⊢
    obtain ⟨q, hq, -⟩ := Exc.bind_ok_iff.1 ho
    exact h.ran p x w state dt q hq

variable {σ : Type} {R : Registry} (hcall : CallsOnce call)
include hcall

/-! ### Intervals that are not longer than the timestep -/

theorem run_due {cs : List (Bool × Comp σ)} (hp : ∀ c ∈ cs, c.2.Plain) {dt : Int} (hdt : 0 ≤ dt) :
    ∀ (n : Nat) (x : τ) (s : σ) (m : Caches)
    (state : State), (∀ j, (m j).delta ≤ dt) → (∀ t, State.time state = .ok t → DueFrom 0 m t) →
    (runClock (call (callImplicitComposite R (updatingFrom 0 cs))) dt n x (s, m) state).map (fun r => (r.1, r.2.1.1, r.2.2)) =
      runClock (call (callImplicitComposite R (cs.map Prod.snd))) dt n x s state := by
  intro n
  induction n with
  | zero => exact fun x s m state _ _ => rfl
  | succ n ih =>
    intro x s m state hdelta hdue
    have htime : (∃ t, Dict.get? state "time" = some (.time t) ∧ State.time state = .ok t) ∨
        ∀ t, Dict.get? state "time" ≠ some (.time t) := by
      unfold State.time
      rcases Dict.get? state "time" with _ | ⟨_ | t⟩
      · exact .inr fun t h => by cases h
      · exact .inr fun t h => by cases h
      · exact .inl ⟨t, rfl, rfl⟩
    rw [runClock, runClock]
    rcases htime with ⟨t, ht, ht'⟩ | ht
    · obtain ⟨h1, h2, h3⟩ := composite_due R ht' dt cs hp 0 s m [] [] (hdue t ht')
      have hs := hcall.same (callImplicitComposite R (updatingFrom 0 cs)) (callImplicitComposite R (cs.map Prod.snd)) x (s, m) s
        state dt h1
      have hr := hcall.ran (callImplicitComposite R (updatingFrom 0 cs)) x (s, m) state dt
      have hr' := hcall.ran (callImplicitComposite R (cs.map Prod.snd)) x s state dt
      rw [ht]
      revert hs hr hr'
      rcases call (callImplicitComposite R (updatingFrom 0 cs)) x (s, m) state dt with ⟨x1, w1, st1, res⟩
      rcases call (callImplicitComposite R (cs.map Prod.snd)) x s state dt with ⟨x2, w2, st2, res2⟩
      rintro ⟨rfl, e⟩ hr hr'
      cases e
      rcases res with e | o
      · rfl
      · obtain ⟨rfl, -⟩ := hr o rfl
        obtain ⟨rfl, -⟩ := hr' o rfl
        dsimp only
        have := ih x1 (callImplicitComposite R (updatingFrom 0 cs) (s, m) state dt).1.1
          (callImplicitComposite R (updatingFrom 0 cs) (s, m) state dt).1.2 (Dict.set o.2 "time" (.time (t + dt)))
          (fun j => by rw [show ((callImplicitComposite R (updatingFrom 0 cs) (s, m) state dt).1.2 j).delta = _ from (h3 j).1]; exact hdelta j)
          (fun t' ht1 j hj => by
            unfold State.time at ht1
            rw [Dict.get?_set_self] at ht1
            cases ht1
            obtain ⟨e1, e2⟩ := h3 j
            have e1' : ((callImplicitComposite R (updatingFrom 0 cs) (s, m) state dt).1.2 j).delta = (m j).delta := e1
            have hj' := hdelta j
            rcases e2 with e2 | e2
            · have e2' : ((callImplicitComposite R (updatingFrom 0 cs) (s, m) state dt).1.2 j).last = (m j).last := e2
              rw [e2', e1']
              rcases hdue t ht' j hj with h | ⟨l, hl, hle⟩
              · exact .inl h
              · exact .inr ⟨l, hl, by omega⟩
            · exact .inr ⟨t, e2, by omega⟩)
        rw [this]
        exact congrArg (fun w => runClock (call (callImplicitComposite R (cs.map Prod.snd))) dt n x1 w _) h2
    · revert ht
      rcases call (callImplicitComposite R (updatingFrom 0 cs)) x (s, m) state dt with ⟨x1, w1, st1, e | o⟩ <;>
        rcases call (callImplicitComposite R (cs.map Prod.snd)) x s state dt with ⟨x2, w2, st2, e' | o'⟩ <;>
        rcases Dict.get? state "time" with _ | ⟨_ | t⟩ <;> intro ht <;>
        first | rfl | exact absurd rfl (ht t)

/-! ### Longer intervals -/

omit hcall in
theorem runClock_one {f : τ → σ → State → Int → τ × σ × State × Except Err (Dict DataArray × State)} {dt : Int} {x : τ} {w : σ}
    {state : State} {r : τ × σ × State} (h : runClock f dt 1 x w state = some r) :
    ∃ t st d new, Dict.get? state "time" = some (.time t) ∧ f x w state dt = (r.1, r.2.1, st, .ok (d, new)) ∧
      r.2.2 = Dict.set new "time" (.time (t + dt)) := by
  rw [runClock] at h
  rcases hf : f x w state dt with ⟨x1, w1, st1, e | ⟨d, new⟩⟩
  · rw [hf] at h; cases h
  · rw [hf] at h
    dsimp only at h
    rcases ht : Dict.get? state "time" with _ | ⟨_ | t⟩
    · rw [ht] at h; cases h
    · rw [ht] at h; cases h
    · rw [ht] at h
      cases h
      exact ⟨t, st1, d, new, rfl, rfl, rfl⟩

omit hcall in
/-- Steps since the last update, one step later. -/
theorem mod_later {j k : Nat} (hk : 1 ≤ k) : ((j + 1) % k = 0 ∧ j % k = k - 1) ∨ ((j + 1) % k = j % k + 1 ∧ 1 ≤ (j + 1) % k ∧ (j + 1) % k < k) := by
  have h1 : j % k < k := Nat.mod_lt _ hk
  have h2 : (j + 1) % k = (j % k + 1) % k := (Nat.mod_add_mod j k 1).symm
  by_cases h : j % k + 1 = k
  · left
    rw [h2, h, Nat.mod_self]
    omega
  · right
    rw [h2, Nat.mod_eq_of_lt (by omega)]
    omega

/-- What the wrappers remember during a run, and what the steps are. -/
theorem held_memory {cs : List (Bool × Comp σ)} (hp : ∀ c ∈ cs, c.2.Plain ∧ c.2.Forgetful) {dt : Int} {delta : Nat → Int}
    {k : Nat → Nat} (hk : ∀ i, StepsPerUpdate dt (delta i) (k i)) {m : Caches} (hm : Unused delta m) {x : τ} {s : σ}
    {state : State} {N : Nat} {X : Nat → τ} {W : Nat → σ × Caches} {S : Nat → State}
    (hrun : ∀ j ≤ N, runClock (call (callImplicitComposite R (updatingFrom 0 cs))) dt j x (s, m) state = some (X j, W j, S j)) :
    (∀ j ≤ N, ∀ t, Dict.get? (S j) "time" = some (.time t) → ∀ i c, cs[i]? = some (true, c) →
        ((W j).2 i).delta = delta i ∧ (j = 0 ∧ ((W j).2 i).last = none ∨ ∃ o, 1 ≤ j ∧
          ((W j).2 i).last = some (t - ((j - 1) % k i + 1 : Nat) * dt) ∧ ((W j).2 i).cached = some o ∧
          ∀ s, (implicitCall c (S (j - 1 - (j - 1) % k i)) dt s).2 = .ok o)) ∧
    ∀ j < N, ∀ w', ∃ t st d new, Dict.get? (S j) "time" = some (.time t) ∧
      (call (callImplicitComposite R (givenFrom (fun i => S (j - j % k i)) 0 cs)) (X j) w' (S j) dt).1 = X (j + 1) ∧
      (call (callImplicitComposite R (givenFrom (fun i => S (j - j % k i)) 0 cs)) (X j) w' (S j) dt).2.2 = (st, .ok (d, new)) ∧
      S (j + 1) = Dict.set new "time" (.time (t + dt)) := by
  have hstep : ∀ j < N, ∃ t st d new, Dict.get? (S j) "time" = some (.time t) ∧
      call (callImplicitComposite R (updatingFrom 0 cs)) (X j) (W j) (S j) dt = (X (j + 1), W (j + 1), st, .ok (d, new)) ∧
      S (j + 1) = Dict.set new "time" (.time (t + dt)) := by
    intro j hj
    have := hrun (j + 1) hj
    rw [runClock_add, hrun j (by omega)] at this
    exact runClock_one this
  have h0 : X 0 = x ∧ W 0 = (s, m) ∧ S 0 = state := by
    have := hrun 0 (Nat.zero_le _)
    have h := Option.some.inj this
    exact ⟨(congrArg (·.1) h).symm, (congrArg (·.2.1) h).symm, (congrArg (·.2.2) h).symm⟩
  have hone : ∀ j (hj : j < N) t, Dict.get? (S j) "time" = some (.time t) → (∀ i c, cs[i]? = some (true, c) →
        ((W j).2 i).delta = delta i ∧ (j = 0 ∧ ((W j).2 i).last = none ∨ ∃ o, 1 ≤ j ∧
          ((W j).2 i).last = some (t - ((j - 1) % k i + 1 : Nat) * dt) ∧ ((W j).2 i).cached = some o ∧
          ∀ s, (implicitCall c (S (j - 1 - (j - 1) % k i)) dt s).2 = .ok o)) →
      (∀ w', (call (callImplicitComposite R (givenFrom (fun i => S (j - j % k i)) 0 cs)) (X j) w' (S j) dt).1 = X (j + 1) ∧
        (call (callImplicitComposite R (givenFrom (fun i => S (j - j % k i)) 0 cs)) (X j) w' (S j) dt).2.2 =
          (call (callImplicitComposite R (updatingFrom 0 cs)) (X j) (W j) (S j) dt).2.2) ∧
      ∀ i c, cs[i]? = some (true, c) → ((W (j + 1)).2 i).delta = delta i ∧ ∃ o,
          ((W (j + 1)).2 i).last = some (t - (j % k i : Nat) * dt) ∧ ((W (j + 1)).2 i).cached = some o ∧
          ∀ s, (implicitCall c (S (j - j % k i)) dt s).2 = .ok o := by
    intro j hj t ht hW
    have ht' : State.time (S j) = .ok t := by
      unfold State.time
      rw [ht]
    have hcase : ∀ i c, cs[i]? = some (true, c) →
        ((((W j).2 i).last = none ∨ ∃ l, ((W j).2 i).last = some l ∧ l + ((W j).2 i).delta ≤ t) ∧ j % k i = 0) ∨
        (∃ o, ((W j).2 i).last = some (t - (j % k i : Nat) * dt) ∧ t < t - (j % k i : Nat) * dt + ((W j).2 i).delta ∧
          ((W j).2 i).cached = some o ∧ ∀ s, (implicitCall c (S (j - j % k i)) dt s).2 = .ok o) := by
      intro i c hc
      obtain ⟨e1, e2⟩ := hW i c hc
      obtain ⟨k1, k2, k3⟩ := hk i
      rcases e2 with ⟨rfl, e2⟩ | ⟨o, hj1, e2, e3, e4⟩
      · exact .inl ⟨.inl e2, Nat.zero_mod _⟩
      · obtain ⟨j', rfl⟩ : ∃ j', j = j' + 1 := ⟨j - 1, by omega⟩
        rw [Nat.add_sub_cancel] at e2 e4
        rcases mod_later (j := j') k1 with ⟨q1, q2⟩ | ⟨q1, q2, q3⟩
        · refine .inl ⟨.inr ⟨_, e2, ?_⟩, q1⟩
          rw [e1, q2, show k i - 1 + 1 = k i by omega]
          linarith
        · right
          rw [← q1] at e2
          refine ⟨o, e2, ?_, e3, ?_⟩
          · have := k3 _ q2 q3
            rw [e1]
            linarith
          · rw [show j' + 1 - (j' + 1) % k i = j' - j' % k i by rw [q1]; have := Nat.mod_le j' (k i); omega]
            exact e4
    have held := fun w' => composite_held R ht' dt (fun i => S (j - j % k i)) cs hp 0 (W j).1 w' (W j).2 [] []
      (fun i c _ hc => by
        rw [Nat.sub_zero] at hc
        rcases hcase i c hc with ⟨h1, h2⟩ | ⟨o, h1, h2, h3, h4⟩
        · exact .inl ⟨h1, by rw [h2]; rfl⟩
        · exact .inr ⟨_, o, h1, h2, h3, h4⟩)
    obtain ⟨t', st, d, new, ht1, hc1, hS⟩ := hstep j hj
    rw [ht] at ht1
    cases ht1
    obtain ⟨hr1, r, hr2⟩ := hcall.ran (callImplicitComposite R (updatingFrom 0 cs)) (X j) (W j) (S j) dt (d, new) (by rw [hc1])
    rw [hc1] at hr1
    refine ⟨fun w' => ?_, fun i c hc => ?_⟩
    · obtain ⟨g1, g2⟩ := hcall.same (callImplicitComposite R (updatingFrom 0 cs))
        (callImplicitComposite R (givenFrom (fun i => S (j - j % k i)) 0 cs)) (X j) (W j) w' (S j) dt (held w').1
      exact ⟨g1.symm.trans (by rw [hc1]), g2.symm⟩
    · obtain ⟨-, -, g3⟩ := held (W j).1
      obtain ⟨f1, ⟨o, f2, f3⟩, f4⟩ := g3 r hr2 i c (Nat.zero_le _) hc
      have hr1' : W (j + 1) = (compositeLoop R ((updatingFrom 0 cs).map fun c => implicitCall c (S j) dt) ((W j).1, (W j).2) [] []).1 :=
        hr1
      rw [hr1']
      refine ⟨f1.trans (hW i c hc).1, o, ?_, f2, f3⟩
      rcases hcase i c hc with ⟨h1, h2⟩ | ⟨o', h1, h2, -, -⟩
      · rcases f4 with ⟨-, f4⟩ | ⟨l, f4, f5, -⟩
        · rw [f4, h2]
          simp
        · exfalso
          rcases h1 with h1 | ⟨l', h1, h1'⟩
          · rw [h1] at f4; cases f4
          · rw [h1] at f4
            cases f4
            omega
      · rcases f4 with ⟨f4, -⟩ | ⟨l, f4, -, f5⟩
        · exfalso
          rcases f4 with f4 | ⟨l', f4, f4'⟩
          · rw [h1] at f4; cases f4
          · rw [h1] at f4
            cases f4
            omega
        · rw [h1] at f4
          cases f4
          exact f5
  have hinv : ∀ j ≤ N, ∀ t, Dict.get? (S j) "time" = some (.time t) → ∀ i c, cs[i]? = some (true, c) →
        ((W j).2 i).delta = delta i ∧ (j = 0 ∧ ((W j).2 i).last = none ∨ ∃ o, 1 ≤ j ∧
          ((W j).2 i).last = some (t - ((j - 1) % k i + 1 : Nat) * dt) ∧ ((W j).2 i).cached = some o ∧
          ∀ s, (implicitCall c (S (j - 1 - (j - 1) % k i)) dt s).2 = .ok o) := by
    intro j
    induction j with
    | zero =>
      intro _ t _ i c _
      rw [h0.2.1]
      dsimp only
      rw [hm i]
      exact ⟨rfl, .inl ⟨rfl, rfl⟩⟩
    | succ j ih =>
      intro hj t ht i c hc
      obtain ⟨t', st, d, new, ht1, -, hS⟩ := hstep j (by omega)
      rw [hS, Dict.get?_set_self] at ht
      cases ht
      obtain ⟨-, g⟩ := hone j (by omega) t' ht1 (ih (by omega) t' ht1)
      obtain ⟨g1, o, g2, g3, g4⟩ := g i c hc
      refine ⟨g1, .inr ⟨o, by omega, ?_, g3, ?_⟩⟩
      · rw [g2, Nat.add_sub_cancel]
        congr 1
        push_cast
        ring
      · rw [Nat.add_sub_cancel]
        exact g4
  refine ⟨hinv, ?_⟩
  intro j hj w'
  obtain ⟨t, st, d, new, ht, hc1, hS⟩ := hstep j hj
  obtain ⟨g, -⟩ := hone j hj t ht (hinv j (by omega) t ht)
  refine ⟨t, st, d, new, ht, (g w').1, ?_, hS⟩
  rw [(g w').2, hc1]

theorem held_run {cs : List (Bool × Comp σ)} (hp : ∀ c ∈ cs, c.2.Plain ∧ c.2.Forgetful) {dt : Int} {delta : Nat → Int}
    {k : Nat → Nat} (hk : ∀ i, StepsPerUpdate dt (delta i) (k i)) {m : Caches} (hm : Unused delta m) {x : τ} {s : σ}
    {state : State} {N : Nat} {X : Nat → τ} {W : Nat → σ × Caches} {S : Nat → State}
    (hrun : ∀ j ≤ N, runClock (call (callImplicitComposite R (updatingFrom 0 cs))) dt j x (s, m) state = some (X j, W j, S j)) :
    ∀ j < N, ∀ w', ∃ t st d new, Dict.get? (S j) "time" = some (.time t) ∧
      (call (callImplicitComposite R (givenFrom (fun i => S (j - j % k i)) 0 cs)) (X j) w' (S j) dt).1 = X (j + 1) ∧
      (call (callImplicitComposite R (givenFrom (fun i => S (j - j % k i)) 0 cs)) (X j) w' (S j) dt).2.2 = (st, .ok (d, new)) ∧
      S (j + 1) = Dict.set new "time" (.time (t + dt)) :=
  (held_memory hcall hp hk hm hrun).2

end

/-! ## SSPRungeKutta -/

theorem convertTendencies_attrs {R : Registry} {state y : State} (h : SameAttrs state y) : ∀ {t a : Dict DataArray},
    convertTendencies R state t = .ok a → convertTendencies R y t = .ok a := by
  intro t
  induction t with
  | nil => exact fun h => h
  | cons kv t ih =>
    intro a ha
    obtain ⟨q, v⟩ := kv
    unfold convertTendencies at ha ⊢
    obtain ⟨v', hv, ha⟩ := Exc.bind_ok_iff.1 ha
    obtain ⟨rest, hr, ha⟩ := Exc.bind_ok_iff.1 ha
    have hv' : convertTendency R y q v = .ok v' := by
      unfold convertTendency at hv ⊢
      revert hv
      cases v.attrs.get? "units" with
      | none => exact fun h => h
      | some u =>
        intro hv
        dsimp only at hv ⊢
        obtain ⟨x, hx, hv⟩ := Exc.bind_ok_iff.1 hv
        obtain ⟨x', hx', e⟩ := h q x (State.da_ok.1 hx)
        rw [State.da_ok.2 hx', Exc.ok_bind, e]
        exact hv
    rw [hv', Exc.ok_bind, ih hr, Exc.ok_bind]
    exact ha

section
variable {σ : Type} (R : Registry) {state : State} {t : Int} (ht : State.time state = .ok t) (dt : Int)
include ht

/-- Once all wrappers have been called, calls at the same time give the same again, whatever the state. -/
theorem composite_again : ∀ (cs : List (Comp σ)), (∀ c ∈ cs, c.Plain) → ∀ (i : Nat) (s s' : σ) (m m' : Caches)
    (td dd : Dict DataArray) (r : TendOut), DueFrom i m t →
    compositeLoop R ((updatingFrom i (cs.map fun c => (true, c))).map fun c => implicitCall c state dt) (s, m) td dd = ((s', m'), .ok r) →
    (∀ j, i ≤ j → j < i + cs.length → (m' j).delta = (m j).delta ∧ (m' j).last = some t) ∧
    (∀ j, j < i ∨ i + cs.length ≤ j → m' j = m j) ∧
    ((∀ j, i ≤ j → j < i + cs.length → 0 < (m j).delta) → ∀ state' s'', State.time state' = .ok t →
      compositeLoop R ((updatingFrom i (cs.map fun c => (true, c))).map fun c => implicitCall c state' dt) (s'', m') td dd =
        ((s'', m'), .ok r)) := by
  intro cs
  induction cs with
  | nil =>
    intro _ i s s' m m' td dd r _ h
    cases h
    exact ⟨fun j h1 h2 => absurd h2 (by rw [List.length_nil]; omega), fun _ _ => rfl, fun _ _ _ _ => rfl⟩
  | cons c cs ih =>
    intro hp i s s' m m' td dd r hdue h
    have hc := hp c List.mem_cons_self
    simp only [List.map_cons, updatingFrom, if_true] at h ⊢
    rw [compositeLoop_cons, update_due hc ht dt (hdue i (Nat.le_refl i))] at h
    dsimp only at h
    rcases hx : implicitCall c state dt s with ⟨s1, e | o⟩
    · rw [hx] at h; cases h
    · rw [hx] at h
      dsimp only at h
      cases ha : addInto R o.1 td with
      | error e => rw [ha] at h; cases h
      | ok t' =>
        rw [ha] at h
        dsimp only at h
        generalize hm1 : (fun j => if j = i then
          ({ delta := (m i).delta, cached := some o, last := some t } : UFW TendOut) else m j) = m1 at h
        have hne : ∀ j, j ≠ i → m1 j = m j := fun j hj => by rw [← hm1]; dsimp only; rw [if_neg hj]
        have hi : m1 i = { delta := (m i).delta, cached := some o, last := some t } := by
          rw [← hm1]; dsimp only; rw [if_pos rfl]
        obtain ⟨g1, g2, g3⟩ := ih (fun c' h => hp c' (List.mem_cons_of_mem _ h)) (i + 1) s1 s' m1 m' t' (dd.update o.2) r
          (fun j hj => by rw [hne j (by omega)]; exact hdue j (by omega)) h
        have hmi : m' i = { delta := (m i).delta, cached := some o, last := some t } := (g2 i (.inl (by omega))).trans hi
        rw [List.length_cons]
        refine ⟨fun j h1 h2 => ?_, fun j hj => ?_, fun hpos state' s'' ht' => ?_⟩
        · by_cases hj : j = i
          · subst hj
            rw [hmi]
            exact ⟨rfl, rfl⟩
          · have := g1 j (by omega) (by omega)
            rw [hne j hj] at this
            exact this
        · rw [g2 j (by omega), hne j (by omega)]
        · have hpi := hpos i (by omega) (by omega)
          rw [compositeLoop_cons, update_kept hc ht' dt (l := t) (o := o) (by rw [hmi]) (by rw [hmi]; dsimp only; omega) (by rw [hmi])]
          dsimp only
          rw [ha]
          exact g3 (fun j h1 h2 => by rw [hne j (by omega)]; exact hpos j (by omega) (by omega)) state' s'' ht'

end

theorem ssprk_first {σ : Type} {R : Registry} {prog : Prog σ} {three : Bool} {ab ab' : AB} {s s' : σ} {state : State}
    {dt : Int} {diag : Dict DataArray} {out : State} (h : ssprkCall R prog three ab s state dt = (ab', s', .ok (diag, out))) :
    ∃ ab1 s1 st, eulerCall R prog ab s state dt = (ab1, s1, .ok (diag, st)) := by
  unfold ssprkCall at h
  cases three with
  | true =>
    simp only [if_true] at h
    unfold ssprk3 at h
    split at h
    · cases h
    · rename_i ab1 s1 diag1 state1 he1
      split at h
      · cases h
      · split at h
        · cases h
        · split at h
          · cases h
          · simp only [Prod.mk.injEq] at h
            obtain ⟨-, -, h⟩ := h
            obtain ⟨x, -, h⟩ := Exc.bind_ok_iff.1 h
            obtain ⟨y, -, h⟩ := Exc.bind_ok_iff.1 h
            obtain ⟨z, -, h⟩ := Exc.bind_ok_iff.1 h
            cases h
            exact ⟨ab1, s1, state1, he1⟩
  | false =>
    simp only [Bool.false_eq_true, if_false] at h
    unfold ssprk2 at h
    split at h
    · cases h
    · rename_i ab1 s1 diag1 state1 he1
      split at h
      · cases h
      · simp only [Prod.mk.injEq] at h
        obtain ⟨-, -, h⟩ := h
        obtain ⟨x, -, h⟩ := Exc.bind_ok_iff.1 h
        obtain ⟨y, -, h⟩ := Exc.bind_ok_iff.1 h
        cases h
        exact ⟨ab1, s1, state1, he1⟩

/-- **C107 fails** for SSPRungeKutta.  The stages of a step have the time of its first state, so a
wrapper with any positive interval repeats the output of the first stage in the others: a step with
all components in wrappers, however short their intervals, is a forward Euler step of the components
(each called once). -/
theorem ssprk_updating_is_euler {σ : Type} {R : Registry} {cs : List (Comp σ)} (hp : ∀ c ∈ cs, c.Plain) (three : Bool)
    {ab ab' : AB} (hab : ab.order = 1) {s s' : σ} {m m' : Caches} {state : State} (hk : (Dict.keys state).Nodup) {t : Int}
    (ht : State.time state = .ok t) (hdue : DueFrom 0 m t) (hpos : ∀ i < cs.length, 0 < (m i).delta) {dt : Int}
    {diag : Dict DataArray} {out : State}
    (h : ssprkCall R (callImplicitComposite R (updatingFrom 0 (cs.map fun c => (true, c)))) three ab (s, m) state dt =
      (ab', (s', m'), .ok (diag, out))) :
    ∃ ab1 eul, eulerCall R (callImplicitComposite R cs) ab s state dt = (ab1, s', .ok (diag, eul)) ∧
      (∀ q, q ∈ Dict.keys out ↔ q ∈ Dict.keys eul) ∧ Dict.get? out "time" = Dict.get? eul "time" ∧
      (∀ q a, Dict.get? eul q = some (.da a) → ∃ b, Dict.get? out q = some (.da b) ∧ b.attrs = a.attrs ∧
        ∀ ix, b.at' ix = a.at' ix) ∧
      ∀ i < cs.length, (m' i).delta = (m i).delta ∧ (m' i).last = some t := by
  have hT : state.TimeOk := by
    intro a ha
    unfold State.time at ht
    rw [ha] at ht
    cases ht
  have hsnd : (cs.map fun c => (true, c)).map Prod.snd = cs := by
    rw [List.map_map]
    exact List.map_id cs
  have hp' : ∀ c ∈ cs.map fun c => (true, c), c.2.Plain := by
    intro c hc
    obtain ⟨c', hc', rfl⟩ := List.mem_map.1 hc
    exact hp c' hc'
  have hdict := composite_prog_dicts R (updatingFrom 0 (cs.map fun c => (true, c)))
  have hspec : SSPSpec R (callImplicitComposite R (updatingFrom 0 (cs.map fun c => (true, c)))) (if three then shuOsher else heun)
      (s, m) state dt (s', m') diag out := by
    unfold ssprkCall at h
    cases three with
    | true => exact ssprk3_ok hdict hab hk hT (by simpa using h)
    | false => exact ssprk2_ok hdict hab hk hT (by simpa using h)
  obtain ⟨Y, K, S, D, y0, s0, s1, d0, hst, hattr, hval⟩ := hspec.step
  obtain ⟨ab1, w1, eul, he⟩ := ssprk_first h
  obtain ⟨-, t1, E⟩ := eulerCall_ok hdict hab he
  obtain ⟨r, hr, hconv, hdiag⟩ := E.tend
  obtain ⟨ws, wm⟩ := w1
  obtain ⟨g1, -, g3⟩ := composite_again R ht dt cs hp 0 s ws m wm [] [] r hdue hr
  have g3 := g3 (fun j _ hj => hpos j (by omega))
  have hstages : 1 ≤ (if three then shuOsher else heun).stages := by cases three <;> decide
  have h0 := (hst 0 (by omega)).1
  rw [y0, s0] at h0
  obtain ⟨r0, hr0, hc0, -⟩ := h0
  rw [hr] at hr0
  have hS1 : S 1 = (ws, wm) := (congrArg Prod.fst hr0).symm
  have er0 : r = r0 := Except.ok.inj (congrArg Prod.snd hr0)
  subst er0
  have eK0 : t1 = K 0 := Except.ok.inj (hconv.symm.trans hc0)
  have hall : ∀ i, i < (if three then shuOsher else heun).stages → S (i + 1) = (ws, wm) ∧ K i = t1 := by
    intro i
    induction i with
    | zero => exact fun _ => ⟨hS1, eK0.symm⟩
    | succ i ih =>
      intro hi
      obtain ⟨hSi, -⟩ := ih (by omega)
      obtain ⟨⟨ri, hri, hci, -⟩, hti, -, hai, -⟩ := hst (i + 1) hi
      rw [hSi] at hri
      have htime : State.time (Y (i + 1)) = .ok t := by
        unfold State.time at ht ⊢
        rw [hti]
        exact ht
      have hag := (g3 (Y (i + 1)) ws htime).symm.trans hri
      refine ⟨(congrArg Prod.fst hag).symm, ?_⟩
      have eri : r = ri := Except.ok.inj (congrArg Prod.snd hag)
      subst eri
      exact Except.ok.inj (hci.symm.trans (convertTendencies_attrs hai hconv))
  have hend : (s', m') = (ws, wm) := by
    obtain ⟨n, hn⟩ : ∃ n, (if three then shuOsher else heun).stages = n + 1 := ⟨_, (Nat.succ_pred_eq_of_pos hstages).symm⟩
    rw [← s1, hn]
    exact (hall n (by omega)).1
  cases hend
  have hsum : ∀ q ix, State.val out q ix = State.val eul q ix := by
    intro q ix
    rw [hval q ix, E.value q ix]
    congr 2
    have hcongr : ((List.range (if three then shuOsher else heun).stages).map fun j =>
        (if three then shuOsher else heun).b j * tval (K j) q ix) =
        (List.range (if three then shuOsher else heun).stages).map fun j =>
          (if three then shuOsher else heun).b j * tval t1 q ix := by
      apply List.map_congr_left
      intro j hj
      rw [(hall j (List.mem_range.1 hj)).2]
    rw [hcongr]
    cases three with
    | true =>
      simp only [if_true, shuOsher, List.range_succ, List.range_zero, List.nil_append, List.cons_append, List.map_cons, List.map_nil,
        List.sum_cons, List.sum_nil]
      norm_num
      ring
    | false =>
      simp only [Bool.false_eq_true, if_false, heun, List.range_succ, List.range_zero, List.nil_append, List.cons_append,
        List.map_cons, List.map_nil, List.sum_cons, List.sum_nil]
      ring
  have hcomp := composite_due R ht dt (cs.map fun c => (true, c)) hp' 0 s m [] [] hdue
  dsimp only at hcomp
  rw [hsnd] at hcomp
  obtain ⟨hc1, hc2, -⟩ := hcomp
  have hsame := (ab_callsOnce R).same (callImplicitComposite R (updatingFrom 0 (cs.map fun c => (true, c))))
    (callImplicitComposite R cs) ab (s, m) s state dt hc1
  have he' := he
  unfold eulerCall at he'
  simp only [Prod.mk.injEq] at he'
  obtain ⟨e1, e2, e3⟩ := he'
  obtain ⟨o, ho, e3⟩ := Exc.bind_ok_iff.1 e3
  have hs3 : (abCall R (callImplicitComposite R (updatingFrom 0 (cs.map fun c => (true, c)))) ab (s, m) state dt).2.2.2 =
      (abCall R (callImplicitComposite R cs) ab s state dt).2.2.2 := congrArg Prod.snd hsame.2
  have hran := ((ab_callsOnce R).ran (callImplicitComposite R cs) ab s state dt o (hs3.symm.trans ho)).1
  have hrun : (callImplicitComposite R cs s state dt).1 = s' := by
    refine hc2.symm.trans ?_
    have := congrArg (·.1.1) hr
    exact this
  refine ⟨ab1, eul, ?_, fun q => (hspec.keys q).trans (E.keys q).symm, hspec.time.trans (E.time hT).symm, ?_, ?_⟩
  · unfold eulerCall
    have f1 : (AB.call R (callImplicitComposite R cs) ab s state dt).1 = ab1 := hsame.1.symm.trans e1
    have f2 : (AB.call R (callImplicitComposite R cs) ab s state dt).2.1 = s' := hran.trans hrun
    have f3 : (AB.call R (callImplicitComposite R cs) ab s state dt).2.2 = .ok o := hs3.symm.trans ho
    dsimp only
    rw [f1, f2, f3, Exc.ok_bind, e3]
  · intro q a ha
    have hx : ∃ x, Dict.get? state q = some (.da x) ∧ a.attrs = x.attrs := by
      by_cases hq : q ∈ Dict.keys t1
      · obtain ⟨x, n, hx, hn, hnx, -⟩ := E.stepped q hq
        rw [hn] at ha
        cases ha
        exact ⟨x, hx, hnx⟩
      · exact ⟨a, (E.untouched q hq).symm.trans ha, rfl⟩
    obtain ⟨x, hx, hxa⟩ := hx
    obtain ⟨b, hb, hbx⟩ := hattr q x hx
    refine ⟨b, hb, hbx.trans hxa.symm, fun ix => ?_⟩
    have := hsum q ix
    unfold State.val at this
    rw [hb, ha] at this
    exact this
  · exact fun i hi => g1 i (Nat.zero_le i) (by omega)

/-! ## The claims -/

theorem Unused.due {delta : Nat → Int} {m : Caches} (h : Unused delta m) (i : Nat) (t : Int) : DueFrom i m t :=
  fun j _ => .inl (by rw [h j])

section
variable {σ : Type} (R : Registry) (inP outP : PropDict) (inst : String) (tid : Bool) {cs : List (Bool × Comp σ)} {dt : Int}
  {delta : Nat → Int} {m : Caches} (hm : Unused delta m)
include hm

/-- **C107.**  AdamsBashforth and Leapfrog, with some components in UpdateFrequencyWrappers whose
intervals are at most the timestep, run exactly as they do without the wrappers. -/
theorem updates_every_step_partial (hp : ∀ c ∈ cs, c.2.Plain) (hdt : 0 ≤ dt) (hdelta : ∀ i, delta i ≤ dt) (n : Nat) (s : σ)
    (state : State) :
    (∀ ab, (runClock (tsCall R inP outP inst tid (abCall R (callImplicitComposite R (updatingFrom 0 cs)))) dt n ab (s, m)
        state).map (fun r => (r.1, r.2.1.1, r.2.2)) =
      runClock (tsCall R inP outP inst tid (abCall R (callImplicitComposite R (cs.map Prod.snd)))) dt n ab s state) ∧
    ∀ lf, (runClock (tsCall R inP outP inst tid (LF.call R (callImplicitComposite R (updatingFrom 0 cs)))) dt n lf (s, m)
        state).map (fun r => (r.1, r.2.1.1, r.2.2)) =
      runClock (tsCall R inP outP inst tid (LF.call R (callImplicitComposite R (cs.map Prod.snd)))) dt n lf s state :=
  have hd : ∀ j, (m j).delta ≤ dt := fun j => by rw [hm j]; exact hdelta j
  ⟨fun ab => run_due ((ab_callsOnce R).stepper R inP outP inst tid) hp hdt n ab s m state hd fun t _ => hm.due 0 t,
   fun lf => run_due ((lf_callsOnce R).stepper R inP outP inst tid) hp hdt n lf s m state hd fun t _ => hm.due 0 t⟩

/-- **C107.**  With any intervals, AdamsBashforth makes in step `j` of a run the step of the
components in which those in wrappers are given the state of step `j - j % k`, the last that is a
multiple of the number `k` of timesteps in their interval (rounded up). -/
theorem ab_held_between_updates (hp : ∀ c ∈ cs, c.2.Plain ∧ c.2.Forgetful) {k : Nat → Nat}
    (hk : ∀ i, StepsPerUpdate dt (delta i) (k i)) {ab : AB} {s : σ} {state : State} {N : Nat} {X : Nat → AB}
    {W : Nat → σ × Caches} {S : Nat → State}
    (hrun : ∀ j ≤ N, runClock (tsCall R inP outP inst tid (abCall R (callImplicitComposite R (updatingFrom 0 cs)))) dt j ab (s, m)
      state = some (X j, W j, S j)) :
    ∀ j < N, ∀ w', ∃ t d new, Dict.get? (S j) "time" = some (.time t) ∧
      (tsCall R inP outP inst tid (abCall R (callImplicitComposite R (givenFrom (fun i => S (j - j % k i)) 0 cs))) (X j) w' (S j)
        dt).1 = X (j + 1) ∧
      (tsCall R inP outP inst tid (abCall R (callImplicitComposite R (givenFrom (fun i => S (j - j % k i)) 0 cs))) (X j) w' (S j)
        dt).2.2.2 = .ok (d, new) ∧
      S (j + 1) = Dict.set new "time" (.time (t + dt)) := by
  intro j hj w'
  obtain ⟨t, st, d, new, h1, h2, h3, h4⟩ :=
    held_run ((ab_callsOnce R).stepper R inP outP inst tid) hp hk hm hrun j hj w'
  exact ⟨t, d, new, h1, h2, congrArg Prod.snd h3, h4⟩

/-- **C107.**  The same for Leapfrog. -/
theorem lf_held_between_updates (hp : ∀ c ∈ cs, c.2.Plain ∧ c.2.Forgetful) {k : Nat → Nat}
    (hk : ∀ i, StepsPerUpdate dt (delta i) (k i)) {lf : LF} {s : σ} {state : State} {N : Nat} {X : Nat → LF}
    {W : Nat → σ × Caches} {S : Nat → State}
    (hrun : ∀ j ≤ N, runClock (tsCall R inP outP inst tid (LF.call R (callImplicitComposite R (updatingFrom 0 cs)))) dt j lf (s, m)
      state = some (X j, W j, S j)) :
    ∀ j < N, ∀ w', ∃ t d new, Dict.get? (S j) "time" = some (.time t) ∧
      (tsCall R inP outP inst tid (LF.call R (callImplicitComposite R (givenFrom (fun i => S (j - j % k i)) 0 cs))) (X j) w' (S j)
        dt).1 = X (j + 1) ∧
      (tsCall R inP outP inst tid (LF.call R (callImplicitComposite R (givenFrom (fun i => S (j - j % k i)) 0 cs))) (X j) w' (S j)
        dt).2.2.2 = .ok (d, new) ∧
      S (j + 1) = Dict.set new "time" (.time (t + dt)) := by
  intro j hj w'
  obtain ⟨t, st, d, new, h1, h2, h3, h4⟩ :=
    held_run ((lf_callsOnce R).stepper R inP outP inst tid) hp hk hm hrun j hj w'
  exact ⟨t, d, new, h1, h2, congrArg Prod.snd h3, h4⟩

end

/-! ## Examples -/

namespace Demo

/-- A component that heats `T` in proportion to itself, with the interface of a TendencyComponent. -/
def heatObj : Obj := ⟨requiredAttributes .tendency, [.tendency], some ⟨["self", "state"], []⟩⟩
def heat1 : Comp Nat := { warm1 with obj := heatObj }
def heat2 : Comp Nat := { warm2 with obj := heatObj }

theorem heat1_plain : heat1.Plain := ⟨by unfold Interface; decide, by decide⟩
theorem heat2_plain : heat2.Plain := ⟨by unfold Interface; decide, by decide⟩
theorem heat1_forgetful : heat1.Forgetful := by
  intro s s' state dt
  show (callTendency reg {} (heatCls "a" "K s^-1") plainInst (heatAc "a" (1 / 10)) s state).2 =
    (callTendency reg {} (heatCls "a" "K s^-1") plainInst (heatAc "a" (1 / 10)) s' state).2
  unfold callTendency
  cases prepare reg {} (heatCls "a" "K s^-1") plainInst state <;> rfl
theorem heat2_forgetful : heat2.Forgetful := by
  intro s s' state dt
  show (callTendency reg {} (heatCls "b" "K day^-1") plainInst (heatAc "b" 8640) s state).2 =
    (callTendency reg {} (heatCls "b" "K day^-1") plainInst (heatAc "b" 8640) s' state).2
  unfold callTendency
  cases prepare reg {} (heatCls "b" "K day^-1") plainInst state <;> rfl

/-- Wrappers around `heat1`, and `heat2` without one. -/
def halfWrapped : List (Bool × Comp Nat) := [(true, heat1), (false, heat2)]

/-- Wrappers that have not been called, with the interval `d`. -/
def unusedFor (d : Int) : Caches := fun _ => { delta := d }

/-- The values of `T` at a place at the end. -/
def ending {τ σ : Type} (a : Option (τ × σ × State)) : Option Rat :=
  a.map fun r => State.val r.2.2 "T" place

end Demo

open Demo in
/-- One second is two timesteps of half a second, and three of 0.4 seconds. -/
example : StepsPerUpdate 500000 1000000 2 ∧ StepsPerUpdate 400000 1000000 3 := by
  refine ⟨⟨by decide, by decide, fun j h1 h2 => ?_⟩, ⟨by decide, by decide, fun j h1 h2 => ?_⟩⟩ <;> omega

open Demo in
/-- The hypotheses hold of `heat1` in a wrapper next to `heat2`, and runs of both steppers succeed.
With an interval of a timestep they end where those without wrappers do (120 K times 1.2 each step
for AdamsBashforth of order 1), with two timesteps elsewhere. -/
example : (∀ c ∈ halfWrapped, c.2.Plain ∧ c.2.Forgetful) ∧ (∀ d, Unused (fun _ => d) (unusedFor d)) ∧
    ending (runClock (tsCall reg [] [] "" false (abCall reg (callImplicitComposite reg (updatingFrom 0 halfWrapped)))) 1000000 2
      { order := 1 } (0, unusedFor 1000000) state) = some (864 / 5) ∧
    ending (runClock (tsCall reg [] [] "" false (abCall reg (callImplicitComposite reg (halfWrapped.map Prod.snd)))) 1000000 2
      { order := 1 } 0 state) = some (864 / 5) ∧
    ending (runClock (tsCall reg [] [] "" false (abCall reg (callImplicitComposite reg (updatingFrom 0 halfWrapped)))) 1000000 2
      { order := 1 } (0, unusedFor 2000000) state) = some (852 / 5) ∧
    (ending (runClock (tsCall reg [] [] "" false (LF.call reg (callImplicitComposite reg (updatingFrom 0 halfWrapped)))) 1000000 2
      {} (0, unusedFor 1000000) state)).isSome ∧
    ending (runClock (tsCall reg [] [] "" false (LF.call reg (callImplicitComposite reg (updatingFrom 0 halfWrapped)))) 1000000 2
      {} (0, unusedFor 2000000) state) ≠
    ending (runClock (tsCall reg [] [] "" false (LF.call reg (callImplicitComposite reg (halfWrapped.map Prod.snd)))) 1000000 2
      {} 0 state) := by
  refine ⟨?_, fun d i => rfl, by decide +kernel, by decide +kernel, by decide +kernel, by decide +kernel, by decide +kernel⟩
  intro c hc
  simp only [halfWrapped, List.mem_cons, List.not_mem_nil, or_false] at hc
  rcases hc with rfl | rfl
  · exact ⟨heat1_plain, heat1_forgetful⟩
  · exact ⟨heat2_plain, heat2_forgetful⟩

open Demo in
/-- **C107 fails** for SSPRungeKutta: a step of a second from 120 K at a rate of a fifth per second
ends at 144 K (Euler) with the components in wrappers, with an interval of a timestep or of a
microsecond, and at 146.4 K or 146.56 K without. -/
theorem ssprk_updating_differs (three : Bool) :
    (∀ c ∈ [heat1, heat2], c.Plain) ∧
    ending (runClock (tsCall reg [] [] "" false (sspCall reg (callImplicitComposite reg [heat1, heat2]) three)) 1000000 1
      { order := 1 } 0 state) = some (if three then 3664 / 25 else 732 / 5) ∧
    ∀ d ∈ [1, 1000000],
      ending (runClock (tsCall reg [] [] "" false (sspCall reg (callImplicitComposite reg (updatingFrom 0
        ([heat1, heat2].map fun c => (true, c)))) three)) 1000000 1 { order := 1 } (0, unusedFor d) state) = some 144 := by
  refine ⟨?_, ?_, ?_⟩
  · intro c hc
    simp only [List.mem_cons, List.not_mem_nil, or_false] at hc
    rcases hc with rfl | rfl
    · exact heat1_plain
    · exact heat2_plain
  · cases three <;> decide +kernel
  · cases three <;> decide +kernel

end Verif

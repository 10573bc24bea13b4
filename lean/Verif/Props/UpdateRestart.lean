import Verif.Props.UpdateRuns
/-!
# C113: runs continued with new UpdateFrequencyWrappers
-/

namespace Verif

/-- The next call of the wrapper, at time `t`, runs the component. -/
def DueAt (t : Int) (w : UFW TendOut) : Prop := w.last = none ∨ ∃ l, w.last = some l ∧ l + w.delta ≤ t

/-- Two wrappers with the same memory, or with the same interval and due at time `t`. -/
def SameOrDue (t : Int) (a b : UFW TendOut) : Prop := a = b ∨ a.delta = b.delta ∧ DueAt t a ∧ DueAt t b

section
variable {σ : Type} {c : Comp σ} (hc : c.Plain) {i : Nat} {state : State} {t : Int} (ht : State.time state = .ok t) (dt : Int)
include hc ht

/-- A call that is not due changes nothing, and depends on what is remembered only. -/
theorem update_remembered {u : UFW TendOut} (hn : ¬ DueAt t u) :
    ∃ r, ∀ (s : σ) (m : Caches), m i = u → implicitCall (c.updating i) state dt (s, m) = ((s, m), r) := by
  refine ⟨match u.cached with
    | some o => .ok o
    | none => .error .typeError, fun s m hm => ?_⟩
  rw [implicitCall_updating hc]
  have hcall : (m i).call State.time c.python s state (some dt) = (m i, s, .ok (m i).cached) := by
    rw [hm]
    unfold UFW.call
    rcases hl : u.last with _ | l
    · exact absurd (.inl hl) hn
    · dsimp only
      rw [ht]
      dsimp only
      rw [if_neg fun h => hn (.inr ⟨l, hl, h⟩)]
  unfold updateCall
  dsimp only
  rw [hcall, hm]
  refine Prod.ext (Prod.ext rfl (funext fun j => ?_)) ?_
  · dsimp only
    split
    · rename_i e; rw [e, hm]
    · rfl
  · dsimp only
    rcases u.cached with _ | o <;> rfl

end

section
variable {σ : Type} (R : Registry) {state : State} {t : Int} (ht : State.time state = .ok t) (dt : Int)
include ht

theorem composite_same_or_due : ∀ (cs : List (Bool × Comp σ)), (∀ c ∈ cs, c.2.Plain ∧ c.2.Forgetful) →
    ∀ (i : Nat) (s s' : σ) (m m' : Caches) (td dd : Dict DataArray),
    (∀ j c, i ≤ j → cs[j - i]? = some (true, c) → SameOrDue t (m j) (m' j)) →
    let p := compositeLoop R ((updatingFrom i cs).map fun c => implicitCall c state dt) (s, m) td dd
    let p' := compositeLoop R ((updatingFrom i cs).map fun c => implicitCall c state dt) (s', m') td dd
    p.2 = p'.2 ∧ (∀ j, j < i → p.1.2 j = m j ∧ p'.1.2 j = m' j) ∧
      ∀ r, p.2 = .ok r → ∀ j c, i ≤ j → cs[j - i]? = some (true, c) → p.1.2 j = p'.1.2 j := by
  intro cs
  induction cs with
  | nil => exact fun _ i s s' m m' td dd _ => ⟨rfl, fun _ _ => ⟨rfl, rfl⟩, fun r _ j c _ h => by cases h⟩
  | cons bc cs ih =>
    intro hp i s s' m m' td dd hm
    obtain ⟨b, c⟩ := bc
    obtain ⟨hc, hf⟩ := hp _ List.mem_cons_self
    have hone : ∃ s1 s1' m1 m1' r, implicitCall (if b then c.updating i else c.beside) state dt (s, m) = ((s1, m1), r) ∧
        implicitCall (if b then c.updating i else c.beside) state dt (s', m') = ((s1', m1'), r) ∧
        (∀ j, j ≠ i → m1 j = m j ∧ m1' j = m' j) ∧ ∀ o, r = .ok o → b = true → m1 i = m1' i := by
      cases b with
      | false =>
        refine ⟨(implicitCall c state dt s).1, (implicitCall c state dt s').1, m, m', (implicitCall c state dt s).2, ?_, ?_,
          fun _ _ => ⟨rfl, rfl⟩, fun _ _ h => (by cases h)⟩
        · simp only [Bool.false_eq_true, if_false]
          rw [implicitCall_beside]
        · simp only [Bool.false_eq_true, if_false]
          rw [implicitCall_beside, hf s' s state dt]
      | true =>
        simp only [if_true]
        have due : ∀ (h1 : DueAt t (m i)) (h2 : DueAt t (m' i)), (m i).delta = (m' i).delta → ∃ s1 s1' m1 m1' r,
            implicitCall (c.updating i) state dt (s, m) = ((s1, m1), r) ∧
            implicitCall (c.updating i) state dt (s', m') = ((s1', m1'), r) ∧
            (∀ j, j ≠ i → m1 j = m j ∧ m1' j = m' j) ∧ ∀ o, r = .ok o → True → m1 i = m1' i := by
          intro h1 h2 hd
          refine ⟨_, (implicitCall c state dt s').1, _, fun j => if j = i then
              (match (implicitCall c state dt s).2 with
                | .ok o => { delta := (m' i).delta, cached := some o, last := some t }
                | .error _ => m' i) else m' j, _, update_due hc ht dt h1, ?_, fun j hj => ⟨if_neg hj, if_neg hj⟩, fun o ho _ => ?_⟩
          · rw [update_due hc ht dt h2, hf s' s state dt]
            rfl
          · dsimp only at ho ⊢
            rw [if_pos rfl, if_pos rfl, ho, hd]
        rcases hm i c (Nat.le_refl i) (by rw [Nat.sub_self]; rfl) with e | ⟨hd, h1, h2⟩
        · by_cases h : DueAt t (m i)
          · exact due h (e ▸ h) (by rw [e])
          · obtain ⟨r, hr⟩ := update_remembered hc (i := i) ht dt h
            exact ⟨s, s', m, m', r, hr s m rfl, hr s' m' e.symm, fun _ _ => ⟨rfl, rfl⟩, fun _ _ _ => e⟩
        · exact due h1 h2 hd
    obtain ⟨s1, s1', m1, m1', r, e1, e1', h1, h2⟩ := hone
    simp only [updatingFrom, List.map_cons]
    rw [compositeLoop_cons, compositeLoop_cons, e1, e1']
    dsimp only
    rcases r with e | r
    · exact ⟨rfl, fun j hj => h1 j (by omega), fun r h => by cases h⟩
    · dsimp only
      cases addInto R r.1 td with
      | error e => exact ⟨rfl, fun j hj => h1 j (by omega), fun r h => by cases h⟩
      | ok t' =>
        have hidx : ∀ j c', i + 1 ≤ j → (cs[j - (i + 1)]? = some (true, c') ↔ ((b, c) :: cs)[j - i]? = some (true, c')) := by
          intro j c' hj
          rw [show j - i = (j - (i + 1)) + 1 by omega, List.getElem?_cons_succ]
        obtain ⟨g1, g2, g3⟩ := ih (fun c' h => hp c' (List.mem_cons_of_mem _ h)) (i + 1) s1 s1' m1 m1' t' (dd.update r.2)
          (fun j c' hj hjc => by
            rw [(h1 j (by omega)).1, (h1 j (by omega)).2]
            exact hm j c' (by omega) ((hidx j c' hj).1 hjc))
        refine ⟨g1, fun j hj => ?_, fun r' hr' j c' hj hjc => ?_⟩
        · obtain ⟨q1, q2⟩ := g2 j (by omega)
          exact ⟨q1.trans (h1 j (by omega)).1, q2.trans (h1 j (by omega)).2⟩
        · by_cases hji : j = i
          · subst hji
            rw [Nat.sub_self] at hjc
            have hjc' : (b, c) = (true, c') := Option.some.inj hjc
            cases hjc'
            obtain ⟨q1, q2⟩ := g2 j (by omega)
            exact q1.trans ((h2 r rfl rfl).trans q2.symm)
          · exact g3 r' hr' j c' (by omega) ((hidx j c' (by omega)).2 hjc)

end

/-! ## Runs -/

section
variable {τ : Type} {call : ∀ {σ : Type}, Prog σ → τ → σ → State → Int → τ × σ × State × Except Err (Dict DataArray × State)}
variable {σ : Type} {R : Registry} (hcall : CallsOnce call)
include hcall

theorem run_same_or_due {cs : List (Bool × Comp σ)} (hp : ∀ c ∈ cs, c.2.Plain ∧ c.2.Forgetful) (dt : Int) :
    ∀ (n : Nat) (x : τ) (s s' : σ) (m m' : Caches) (state : State),
    (∀ t, State.time state = .ok t → ∀ j c, cs[j]? = some (true, c) → SameOrDue t (m j) (m' j)) →
    (runClock (call (callImplicitComposite R (updatingFrom 0 cs))) dt n x (s, m) state).map (fun r => (r.1, r.2.2)) =
      (runClock (call (callImplicitComposite R (updatingFrom 0 cs))) dt n x (s', m') state).map (fun r => (r.1, r.2.2)) := by
  intro n
  induction n with
  | zero => exact fun x s s' m m' state _ => rfl
  | succ n ih =>
    intro x s s' m m' state hm
    rw [runClock, runClock]
    rcases ht : Dict.get? state "time" with _ | ⟨_ | t⟩
    · rcases call (callImplicitComposite R (updatingFrom 0 cs)) x (s, m) state dt with ⟨x1, w1, st1, _ | o⟩ <;>
      rcases call (callImplicitComposite R (updatingFrom 0 cs)) x (s', m') state dt with ⟨x2, w2, st2, _ | o2⟩ <;> rfl
    · rcases call (callImplicitComposite R (updatingFrom 0 cs)) x (s, m) state dt with ⟨x1, w1, st1, _ | o⟩ <;>
      rcases call (callImplicitComposite R (updatingFrom 0 cs)) x (s', m') state dt with ⟨x2, w2, st2, _ | o2⟩ <;> rfl
    · have ht' : State.time state = .ok t := by
        unfold State.time
        rw [ht]
      obtain ⟨h1, -, h3⟩ := composite_same_or_due R ht' dt cs hp 0 s s' m m' [] [] (fun j c _ hj => hm t ht' j c hj)
      have hs := hcall.same (callImplicitComposite R (updatingFrom 0 cs)) (callImplicitComposite R (updatingFrom 0 cs)) x (s, m)
        (s', m') state dt h1
      have hr := hcall.ran (callImplicitComposite R (updatingFrom 0 cs)) x (s, m) state dt
      have hr' := hcall.ran (callImplicitComposite R (updatingFrom 0 cs)) x (s', m') state dt
      revert hs hr hr'
      rcases call (callImplicitComposite R (updatingFrom 0 cs)) x (s, m) state dt with ⟨x1, w1, st1, res⟩
      rcases call (callImplicitComposite R (updatingFrom 0 cs)) x (s', m') state dt with ⟨x2, w2, st2, res2⟩
      rintro ⟨rfl, e⟩ hr hr'
      cases e
      rcases res with e | o
      · rfl
      · obtain ⟨rfl, r, hok⟩ := hr o rfl
        obtain ⟨rfl, -⟩ := hr' o rfl
        exact ih x1 _ _ _ _ _ (fun _ _ j c hj => .inl (h3 r hok j c (Nat.zero_le j) hj))

/-- After `r` steps with new wrappers, all are due if `r` is a multiple of the steps in each interval. -/
theorem due_after {cs : List (Bool × Comp σ)} (hp : ∀ c ∈ cs, c.2.Plain ∧ c.2.Forgetful) {dt : Int} {delta : Nat → Int}
    {k : Nat → Nat} (hk : ∀ i, StepsPerUpdate dt (delta i) (k i)) {m : Caches} (hm : Unused delta m) {x : τ} {s : σ}
    {state : State} {r : Nat} (hkr : ∀ i c, cs[i]? = some (true, c) → k i ∣ r) {x1 : τ} {w1 : σ × Caches} {s1 : State}
    (hrun : runClock (call (callImplicitComposite R (updatingFrom 0 cs))) dt r x (s, m) state = some (x1, w1, s1)) {t : Int}
    (ht : State.time s1 = .ok t) {i : Nat} {c : Comp σ} (hc : cs[i]? = some (true, c)) :
    (w1.2 i).delta = delta i ∧ DueAt t (w1.2 i) := by
  have hex : ∀ j, ∃ y : τ × (σ × Caches) × State, j ≤ r →
      runClock (call (callImplicitComposite R (updatingFrom 0 cs))) dt j x (s, m) state = some y := by
    intro j
    by_cases hj : j ≤ r
    · have := hrun
      rw [← Nat.add_sub_cancel' hj, runClock_add] at this
      rcases hy : runClock (call (callImplicitComposite R (updatingFrom 0 cs))) dt j x (s, m) state with _ | y
      · rw [hy] at this; cases this
      · exact ⟨y, fun _ => rfl⟩
    · exact ⟨(x1, w1, s1), fun h => absurd h hj⟩
  choose Y hY using hex
  have hr := hY r (Nat.le_refl r)
  rw [hrun] at hr
  have hYr : Y r = (x1, w1, s1) := (Option.some.inj hr).symm
  obtain ⟨hinv, -⟩ := held_memory hcall hp hk hm (X := fun j => (Y j).1) (W := fun j => (Y j).2.1) (S := fun j => (Y j).2.2)
    (N := r) (fun j hj => hY j hj)
  have htime : Dict.get? s1 "time" = some (.time t) := by
    unfold State.time at ht
    revert ht
    rcases Dict.get? s1 "time" with _ | ⟨_ | t'⟩ <;> intro ht <;> cases ht
    rfl
  have := hinv r (Nat.le_refl r) t (by rw [hYr]; exact htime) i c hc
  rw [hYr] at this
  dsimp only at this
  obtain ⟨e1, e2⟩ := this
  refine ⟨e1, ?_⟩
  rcases e2 with ⟨-, e2⟩ | ⟨o, hr1, e2, -, -⟩
  · exact .inl e2
  · obtain ⟨k1, k2, -⟩ := hk i
    refine .inr ⟨_, e2, ?_⟩
    obtain ⟨q, hq⟩ := hkr i c hc
    obtain ⟨r', rfl⟩ : ∃ r', r = r' + 1 := ⟨r - 1, by omega⟩
    rw [Nat.add_sub_cancel, e1]
    rcases mod_later (j := r') k1 with ⟨-, q2⟩ | ⟨q1, q2, -⟩
    · rw [q2, show k i - 1 + 1 = k i by omega]
      linarith
    · rw [hq, Nat.mul_mod_right] at q2
      omega

theorem continued_with_new_wrappers {cs : List (Bool × Comp σ)} (hp : ∀ c ∈ cs, c.2.Plain ∧ c.2.Forgetful) {dt : Int}
    {delta : Nat → Int} {k : Nat → Nat} (hk : ∀ i, StepsPerUpdate dt (delta i) (k i)) {m m' : Caches} (hm : Unused delta m)
    (hm' : Unused delta m') {x : τ} {s : σ} {state : State} {r : Nat} (hkr : ∀ i c, cs[i]? = some (true, c) → k i ∣ r) {x1 : τ}
    {w1 : σ × Caches} {s1 : State}
    (hrun : runClock (call (callImplicitComposite R (updatingFrom 0 cs))) dt r x (s, m) state = some (x1, w1, s1)) (s' : σ) (n : Nat) :
    (runClock (call (callImplicitComposite R (updatingFrom 0 cs))) dt (r + n) x (s, m) state).map (fun r => (r.1, r.2.2)) =
      (runClock (call (callImplicitComposite R (updatingFrom 0 cs))) dt n x1 (s', m') s1).map (fun r => (r.1, r.2.2)) := by
  rw [runClock_add, hrun]
  refine run_same_or_due hcall hp dt n x1 w1.1 s' w1.2 m' s1 fun t ht j c hj => ?_
  obtain ⟨h1, h2⟩ := due_after hcall hp hk hm hkr hrun ht hj
  exact .inr ⟨by rw [h1, hm' j], h2, .inl (by rw [hm' j])⟩

end

section
variable {σ : Type} (R : Registry) {cs : List (Bool × Comp σ)} (hp : ∀ c ∈ cs, c.2.Plain ∧ c.2.Forgetful) (inP outP : PropDict)
  (inst : String) (tid : Bool) {dt : Int} {delta : Nat → Int} {k : Nat → Nat} (hk : ∀ i, StepsPerUpdate dt (delta i) (k i))
  {m m' : Caches} (hm : Unused delta m) (hm' : Unused delta m') {s : σ} {state : State} {r : Nat}
  (hkr : ∀ i c, cs[i]? = some (true, c) → k i ∣ r)
include hp hk hm hm' hkr

/-- **C113, AdamsBashforth of any order.**  Some components are in UpdateFrequencyWrappers.  A run
made `r` steps, a multiple of the timesteps in each interval.  If it is continued with new wrappers
(and anything in the memory of the components), it has the same states as if it had gone on. -/
theorem ab_new_wrappers {ab ab1 : AB} {w1 : σ × Caches} {s1 : State}
    (hrun : runClock (tsCall R inP outP inst tid (abCall R (callImplicitComposite R (updatingFrom 0 cs)))) dt r ab (s, m) state =
      some (ab1, w1, s1)) (s' : σ) (n : Nat) :
    (runClock (tsCall R inP outP inst tid (abCall R (callImplicitComposite R (updatingFrom 0 cs)))) dt (r + n) ab (s, m) state).map
        (fun r => (r.1, r.2.2)) =
      (runClock (tsCall R inP outP inst tid (abCall R (callImplicitComposite R (updatingFrom 0 cs)))) dt n ab1 (s', m') s1).map
        (fun r => (r.1, r.2.2)) :=
  continued_with_new_wrappers ((ab_callsOnce R).stepper R inP outP inst tid) hp hk hm hm' hkr hrun s' n

/-- **C113, Leapfrog.** -/
theorem lf_new_wrappers {lf lf1 : LF} {w1 : σ × Caches} {s1 : State}
    (hrun : runClock (tsCall R inP outP inst tid (LF.call R (callImplicitComposite R (updatingFrom 0 cs)))) dt r lf (s, m) state =
      some (lf1, w1, s1)) (s' : σ) (n : Nat) :
    (runClock (tsCall R inP outP inst tid (LF.call R (callImplicitComposite R (updatingFrom 0 cs)))) dt (r + n) lf (s, m) state).map
        (fun r => (r.1, r.2.2)) =
      (runClock (tsCall R inP outP inst tid (LF.call R (callImplicitComposite R (updatingFrom 0 cs)))) dt n lf1 (s', m') s1).map
        (fun r => (r.1, r.2.2)) :=
  continued_with_new_wrappers ((lf_callsOnce R).stepper R inP outP inst tid) hp hk hm hm' hkr hrun s' n

/-- **C113, a new process** (with a stepper of order 1, which remembers nothing of earlier steps):
with new wrappers, new components and a new stepper, a run continued after a multiple of the
timesteps in each interval ends with the state it would have had. -/
theorem euler_restarts_between_updates {ab ab1 : AB} (hab : AB.make 1 = .ok ab) {w1 : σ × Caches} {s1 : State}
    (hrun : runClock (tsCall R inP outP inst tid (abCall R (callImplicitComposite R (updatingFrom 0 cs)))) dt r ab (s, m) state =
      some (ab1, w1, s1)) (s' : σ) (n : Nat) :
    (runClock (tsCall R inP outP inst tid (abCall R (callImplicitComposite R (updatingFrom 0 cs)))) dt (r + n) ab (s, m) state).map
        (fun r => r.2.2) =
      (runClock (tsCall R inP outP inst tid (abCall R (callImplicitComposite R (updatingFrom 0 cs)))) dt n ab (s', m') s1).map
        (fun r => r.2.2) := by
  have h1 := ab_new_wrappers R hp inP outP inst tid hk hm hm' hkr hrun s' n
  have hkeep : ∀ (j : Nat) (a : AB) (w : σ × Caches) (st : State) (y : AB × (σ × Caches) × State), OneStep dt a →
      runClock (tsCall R inP outP inst tid (abCall R (callImplicitComposite R (updatingFrom 0 cs)))) dt j a w st = some y →
      OneStep dt y.1 := by
    intro j
    induction j with
    | zero => intro a w st y ha h; cases h; exact ha
    | succ j ih =>
      intro a w st y ha h
      rw [Nat.add_comm, runClock_add] at h
      rcases hb : runClock (tsCall R inP outP inst tid (abCall R (callImplicitComposite R (updatingFrom 0 cs)))) dt 1 a w st with _ | z
      · rw [hb] at h; cases h
      · rw [hb] at h
        obtain ⟨t, st', d, new, -, hz, -⟩ := runClock_one hb
        refine ih z.1 z.2.1 z.2.2 y ?_ h
        unfold tsCall at hz
        simp only [Prod.mk.injEq] at hz
        obtain ⟨e1, -, -, e2⟩ := hz
        obtain ⟨o, ho, -⟩ := Exc.bind_ok_iff.1 e2
        rw [← e1]
        exact oneStep_keeps ha w st ho
  have h2 : ∀ (j : Nat) (a a' : AB) (w : σ × Caches) (st : State), OneStep dt a → OneStep dt a' →
      (runClock (tsCall R inP outP inst tid (abCall R (callImplicitComposite R (updatingFrom 0 cs)))) dt j a w st).map (fun r => r.2.2) =
      (runClock (tsCall R inP outP inst tid (abCall R (callImplicitComposite R (updatingFrom 0 cs)))) dt j a' w st).map (fun r => r.2.2) := by
    intro j a a' w st ha ha'
    cases j with
    | zero => rfl
    | succ j =>
      have e : tsCall R inP outP inst tid (abCall R (callImplicitComposite R (updatingFrom 0 cs))) a w st dt =
          tsCall R inP outP inst tid (abCall R (callImplicitComposite R (updatingFrom 0 cs))) a' w st dt := by
        have : abCall R (callImplicitComposite R (updatingFrom 0 cs)) a w st dt =
            abCall R (callImplicitComposite R (updatingFrom 0 cs)) a' w st dt := by
          unfold abCall
          rw [oneStep_call ha, oneStep_call ha']
        unfold tsCall
        rw [this]
      rw [runClock, runClock, e]
  have hone := hkeep r ab (s, m) state _ (oneStep_new hab) hrun
  rw [h2 n ab ab1 (s', m') s1 (oneStep_new hab) hone]
  have := congrArg (Option.map Prod.snd) h1
  rw [Option.map_map, Option.map_map] at this
  exact this

end

/-! ## Examples -/

open Demo in
/-- **C113 in full fails:** with an interval of two timesteps, a run of two steps ends at 170.4 K.
Stopped after the first and continued in a new process, it ends at 172.8 K: the new wrapper has
nothing to go on with and runs its component. -/
theorem restart_within_interval :
    let call := tsCall reg [] [] "" false (abCall reg (callImplicitComposite reg (updatingFrom 0 halfWrapped)))
    (∀ c ∈ halfWrapped, c.2.Plain ∧ c.2.Forgetful) ∧ StepsPerUpdate 1000000 2000000 2 ∧ AB.make 1 = .ok { order := 1 } ∧
    ending (runClock call 1000000 2 { order := 1 } (0, unusedFor 2000000) state) = some (852 / 5) ∧
    ((runClock call 1000000 1 { order := 1 } (0, unusedFor 2000000) state).bind fun r =>
      ending (runClock call 1000000 1 { order := 1 } (0, unusedFor 2000000) r.2.2)) = some (864 / 5) := by
  refine ⟨?_, ⟨by decide, by decide, fun j h1 h2 => by omega⟩, rfl, by decide +kernel, by decide +kernel⟩
  intro c hc
  simp only [halfWrapped, List.mem_cons, List.not_mem_nil, or_false] at hc
  rcases hc with rfl | rfl
  · exact ⟨heat1_plain, heat1_forgetful⟩
  · exact ⟨heat2_plain, heat2_forgetful⟩

open Demo in
/-- After two steps it ends the same (and not where a run without wrappers does: 207.36 K). -/
example : (∀ (i : Nat) c, halfWrapped[i]? = some (true, c) → 2 ∣ 2) ∧
    let call := tsCall reg [] [] "" false (abCall reg (callImplicitComposite reg (updatingFrom 0 halfWrapped)))
    ending (runClock call 1000000 3 { order := 1 } (0, unusedFor 2000000) state) = some (5112 / 25) ∧
    ((runClock call 1000000 2 { order := 1 } (0, unusedFor 2000000) state).bind fun r =>
      ending (runClock call 1000000 1 { order := 1 } (7, unusedFor 2000000) r.2.2)) = some (5112 / 25) :=
  ⟨fun _ _ _ => ⟨1, rfl⟩, by decide +kernel, by decide +kernel⟩

end Verif

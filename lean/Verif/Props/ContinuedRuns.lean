import Verif.Spec.ContinuedRuns
import Verif.Props.ComponentOrderClasses
import Verif.Props.Forcing
import Verif.Props.StateUnits
import Verif.Props.RestartExamples
/-!
# C106: a run continued from a restart file
-/

namespace Verif

/-! ## Tendencies in diagnostics of states that agree by name -/

section
variable {R : Registry}

theorem AlikeEntry.rates {k : String} {a b : DataArray} (h : AlikeEntry k a b) : SameRates R a b :=
  ⟨h.left, h.right, h.dims, h.len, .inl ⟨by rw [h.attrs], h.val⟩⟩

theorem netTendency_sim (hR : R.Faithful) (inP : PropDict) {s s' n n' : State} (h : Agree s s') (hn : Agree n n') (dt : Int)
    (q : String) : Sim SameByName (netTendency R inP s n dt q) (netTendency R inP s' n' dt q) := by
  unfold netTendency
  cases inP.get q with
  | error e => exact Sim.error
  | ok p =>
    rw [Exc.ok_bind, Exc.ok_bind]
    cases p.units with
    | none => exact Sim.error
    | some base =>
      dsimp only
      rw [Exc.ok_bind, Exc.ok_bind]
      refine (da_sim hn q).bind fun a a' ha => (toUnits_sim hR ha.rates base).bind fun a1 a1' ha1 =>
        (da_sim h q).bind fun b b' hb => (toUnits_sim hR hb.rates base).bind fun b1 b1' hb1 =>
        (sub_sim ha1 hb1).bind fun d d' hd => Sim.ok ⟨hd.dims, hd.len, rfl, fun ix hix => ?_⟩
      show d.at' ix / seconds dt * 1 = d'.at' ix / seconds dt * 1
      rw [hd.val ix hix]

theorem sameNamedDict_keys {d d' : Dict DataArray} (h : SameNamedDict d d') (k : String) : k ∈ d.keys ↔ k ∈ d'.keys :=
  (sameNamedDict_each h).mem k

theorem sameNamedDict_set {d d' : Dict DataArray} (h : SameNamedDict d d') (k : String) {a b : DataArray}
    (hab : SameByName a b) : SameNamedDict (d.set k a) (d'.set k b) := by
  refine each_sameNamedDict fun n => ?_
  by_cases hk : n = k
  · subst hk
    rw [Dict.get?_set_self, Dict.get?_set_self]
    exact .some hab
  · rw [Dict.get?_set_ne _ _ (Ne.symm hk), Dict.get?_set_ne _ _ (Ne.symm hk)]
    exact sameNamedDict_each h n

theorem insertNet_sim (hR : R.Faithful) (inP : PropDict) (inst : String) {s s' n n' : State} (h : Agree s s')
    (hn : Agree n n') (dt : Int) : ∀ (ks : List String) {d d' : Dict DataArray}, SameNamedDict d d' →
    Sim SameNamedDict (insertNet R inP inst s n dt ks d) (insertNet R inP inst s' n' dt ks d') := by
  intro ks
  induction ks with
  | nil => exact fun hd => Sim.ok hd
  | cons k ks ih =>
    intro d d' hd
    unfold insertNet
    by_cases hk : tendencyName k inst ∈ d.keys
    · rw [if_pos hk]
      exact Sim.error
    · rw [if_neg hk, if_neg fun e => hk ((sameNamedDict_keys hd _).2 e)]
      exact (netTendency_sim hR inP h hn dt k).bind fun a b hab => ih (sameNamedDict_set hd _ hab)

section
variable {σ σ' τ τ' : Type} {M : τ → τ' → Prop}
  {call : τ → σ → State → Int → τ × σ × State × Except Err (Dict DataArray × State)}
  {call' : τ' → σ' → State → Int → τ' × σ' × State × Except Err (Dict DataArray × State)}

theorem tsCall_sim' (hR : R.Faithful) {inP outP : PropDict} {inst : String} (tid : Bool) {x : τ} {x' : τ'} {w : σ}
    {w' : σ'} {s s' : State} {dt : Int} (h : CallSim M (call x w s dt) (call' x' w' s' dt)) :
    CallSim M (tsCall R inP outP inst tid call x w s dt) (tsCall R inP outP inst tid call' x' w' s' dt) := by
  cases tid with
  | false => exact tsCall_sim h
  | true =>
    intro o ho
    unfold tsCall at ho
    simp only [if_true] at ho
    obtain ⟨q, hq, ho⟩ := Exc.bind_ok_iff.1 ho
    obtain ⟨diag, hd, ho⟩ := Exc.bind_ok_iff.1 ho
    cases ho
    obtain ⟨q', hq', h1, h2, h3, h4⟩ := h q hq
    have hnew := copyUntouched_same h2 h4
    obtain ⟨diag', hd', hdd⟩ := insertNet_sim hR inP inst h2.same hnew.same dt outP.keys h3 diag hd
    refine ⟨(diag', copyUntouched (call' x' w' s' dt).2.2.1 q'.2), ?_, h1, h2, hdd, hnew⟩
    unfold tsCall
    simp only [if_true]
    rw [hq', Exc.ok_bind, hd']
    rfl

/-! ## Runs -/

theorem sameStates_set_time {s s' : State} (h : SameStates s s') (t : Int) :
    SameStates (Dict.set s "time" (.time t)) (Dict.set s' "time" (.time t)) := by
  refine ⟨Dict.nodup_keys_set h.left _ _, Dict.nodup_keys_set h.right _ _, fun k => ?_⟩
  by_cases hk : k = "time"
  · subst hk
    rw [Dict.get?_set_self, Dict.get?_set_self]
    rfl
  · rw [Dict.get?_set_ne _ _ (Ne.symm hk), Dict.get?_set_ne _ _ (Ne.symm hk)]
    exact h.same k

theorem runClock_sim {dt : Int}
    (hc : ∀ x x' w w' s s', M x x' → SameStates s s' → CallSim M (call x w s dt) (call' x' w' s' dt)) :
    ∀ (n : Nat) (x : τ) (x' : τ') (w : σ) (w' : σ') (s s' : State), M x x' → SameStates s s' → ∀ r,
      runClock call dt n x w s = some r →
        ∃ r', runClock call' dt n x' w' s' = some r' ∧ M r.1 r'.1 ∧ SameStates r.2.2 r'.2.2 := by
  intro n
  induction n with
  | zero =>
    intro x x' w w' s s' hM hs r hr
    cases hr
    exact ⟨_, rfl, hM, hs⟩
  | succ n ih =>
    intro x x' w w' s s' hM hs r hr
    have := hc x x' w w' s s' hM hs
    have htime := hs.same "time"
    unfold runClock at hr ⊢
    revert this hr
    generalize call x w s dt = c
    generalize call' x' w' s' dt = c'
    obtain ⟨x1, w1, st1, res⟩ := c
    obtain ⟨x1', w1', st1', res'⟩ := c'
    intro this hr
    cases res with
    | error e => cases hr
    | ok o =>
      obtain ⟨o', e, h1, -, -, h4⟩ := this o rfl
      dsimp only at e
      subst e
      dsimp only at hr ⊢
      revert htime hr
      rcases Dict.get? s "time" with _ | ⟨_ | t⟩ <;> rcases Dict.get? s' "time" with _ | ⟨_ | t'⟩ <;> intro htime hr <;>
        try (first | cases hr | exact htime.elim)
      cases htime
      exact ih x1 x1' w1 w1' _ _ h1 (sameStates_set_time h4 _) r hr

/-- Running `m + n` steps is running `m` steps and then `n`. -/
theorem runClock_add (dt : Int) (m n : Nat) : ∀ (x : τ) (w : σ) (s : State),
    runClock call dt (m + n) x w s = (runClock call dt m x w s).bind fun r => runClock call dt n r.1 r.2.1 r.2.2 := by
  induction m with
  | zero => intro x w s; rw [Nat.zero_add]; rfl
  | succ m ih =>
    intro x w s
    rw [Nat.succ_add_eq_add_succ, Nat.add_succ]
    generalize (fun r : τ × σ × State => runClock call dt n r.1 r.2.1 r.2.2) = f at ih ⊢
    unfold runClock
    rcases call x w s dt with ⟨x1, w1, st1, _ | o⟩
    · rfl
    · dsimp only
      rcases Dict.get? s "time" with _ | ⟨_ | t⟩
      · rfl
      · rfl
      · exact ih _ _ _

end

end

/-! ## Steppers that remember nothing but the timestep -/

/-- A one-step AdamsBashforth between two calls with timestep `dt`. -/
structure OneStep (dt : Int) (ab : AB) : Prop where
  order : ab.order = 1
  hist : ab.hist = []
  timestep : ab.timestep = none ∨ ab.timestep = some dt

section
variable {σ σ' : Type} {R : Registry} {p : Prog σ} {p' : Prog σ'} {dt : Int}

/-- The same stepper after a call. -/
def usedOnce (dt : Int) : AB := { order := 1, timestep := some dt, hist := [] }

theorem oneStep_call {ab : AB} (h : OneStep dt ab) (w : σ) (s : State) :
    AB.call R p ab w s dt = AB.call R p (usedOnce dt) w s dt := by
  obtain ⟨o, t, l⟩ := ab
  obtain ⟨h1, h2, h3⟩ := h
  dsimp only at h1 h2 h3
  subst h1 h2
  unfold AB.call
  rw [if_pos h3, if_pos (.inr rfl)]
  rfl

theorem oneStep_keeps {ab : AB} (h : OneStep dt ab) (w : σ) (s : State) {o : Dict DataArray × State}
    (ho : (AB.call R p ab w s dt).2.2 = .ok o) : OneStep dt (AB.call R p ab w s dt).1 := by
  revert ho
  cases ab_outcome R p ab w s dt with
  | rejected hts hc ht => rw [hc]; intro hok; cases hok
  | early e hts hc ht => rw [hc]; intro hok; cases hok
  | late t e hts ht hp hc => rw [hc]; intro hok; cases hok
  | done t r new' hts hr hconv ht hp hc =>
    rw [hc]
    intro _
    rw [if_pos (by rw [h.hist, h.order]; rfl)]
    exact ⟨h.order, by rw [h.hist]; rfl, .inr rfl⟩

theorem usedOnce_alike : AlikeAB (usedOnce dt) (usedOnce dt) := .new _ rfl

theorem usedOnce_oneStep : OneStep dt (usedOnce dt) := ⟨rfl, rfl, .inr rfl⟩

theorem ab_one_sim (hR : R.Faithful) (hp : SameComponents R p p') (hd : p.Dicts) (hd' : p'.Dicts) {ab ab' : AB}
    (hab : OneStep dt ab ∧ OneStep dt ab') (w : σ) (w' : σ') {s s' : State} (h : SameStates s s') :
    CallSim (fun a a' => OneStep dt a ∧ OneStep dt a') (abCall R p ab w s dt) (abCall R p' ab' w' s' dt) := by
  unfold abCall
  rw [oneStep_call hab.1, oneStep_call hab.2]
  intro o ho
  obtain ⟨o', h1, -, h3⟩ := ab_sim hR hp hd hd' usedOnce_alike w w' h dt o ho
  exact ⟨o', h1, ⟨oneStep_keeps usedOnce_oneStep w s ho, oneStep_keeps usedOnce_oneStep w' s' h1⟩, h3⟩

theorem oneStep_euler {ab ab1 : AB} (h : OneStep dt ab) (w w1 : σ) (s : State) {o : Dict DataArray × State}
    (ho : eulerCall R p ab w s dt = (ab1, w1, .ok o)) : OneStep dt ab1 := by
  unfold eulerCall at ho
  simp only [Prod.mk.injEq] at ho
  obtain ⟨rfl, -, ho⟩ := ho
  obtain ⟨q, hq, -⟩ := Exc.bind_ok_iff.1 ho
  exact oneStep_keeps h w s hq

theorem oneStep_ssprk_call (three : Bool) {ab : AB} (h : OneStep dt ab) (w : σ) (s : State) :
    ssprkCall R p three ab w s dt = ssprkCall R p three (usedOnce dt) w s dt := by
  have he : eulerCall R p ab w s dt = eulerCall R p (usedOnce dt) w s dt := by
    unfold eulerCall
    rw [oneStep_call h]
  unfold ssprkCall
  cases three with
  | true =>
    simp only [if_true]
    unfold ssprk3
    rw [he]
  | false =>
    simp only [Bool.false_eq_true, if_false]
    unfold ssprk2
    rw [he]

theorem oneStep_ssprk_keeps (three : Bool) {ab : AB} (h : OneStep dt ab) (w : σ) (s : State) {o : Dict DataArray × State}
    (ho : (ssprkCall R p three ab w s dt).2.2 = .ok o) : OneStep dt (ssprkCall R p three ab w s dt).1 := by
  unfold ssprkCall at ho ⊢
  cases three with
  | true =>
    simp only [if_true] at ho ⊢
    unfold ssprk3 at ho ⊢
    split at ho
    · cases ho
    · rename_i e1
      have h1 := oneStep_euler h _ _ _ e1
      split at ho
      · cases ho
      · rename_i e2
        have h2 := oneStep_euler h1 _ _ _ e2
        split at ho
        · cases ho
        · split at ho
          · cases ho
          · rename_i e4
            exact oneStep_euler h2 _ _ _ e4
  | false =>
    simp only [Bool.false_eq_true, if_false] at ho ⊢
    unfold ssprk2 at ho ⊢
    split at ho
    · cases ho
    · rename_i e1
      have h1 := oneStep_euler h _ _ _ e1
      split at ho
      · cases ho
      · rename_i e2
        exact oneStep_euler h1 _ _ _ e2

theorem ssprk_one_sim (hR : R.Faithful) (hp : SameComponents R p p') (hd : p.Dicts) (hd' : p'.Dicts) (three : Bool)
    {ab ab' : AB} (hab : OneStep dt ab ∧ OneStep dt ab') (w : σ) (w' : σ') {s s' : State} (h : SameStates s s') :
    CallSim (fun a a' => OneStep dt a ∧ OneStep dt a') (sspCall R p three ab w s dt) (sspCall R p' three ab' w' s' dt) := by
  unfold sspCall
  rw [oneStep_ssprk_call three hab.1, oneStep_ssprk_call three hab.2]
  intro o ho
  obtain ⟨o', h1, -, h3⟩ := ssprk_sim hR hp hd hd' three usedOnce_alike w w' h dt o ho
  exact ⟨o', h1, ⟨oneStep_ssprk_keeps three usedOnce_oneStep w s ho, oneStep_ssprk_keeps three usedOnce_oneStep w' s' h1⟩, h3⟩

theorem oneStep_new {ab : AB} (h : AB.make 1 = .ok ab) : OneStep dt ab := by
  unfold AB.make at h
  rw [if_pos (by decide)] at h
  cases h
  exact ⟨rfl, rfl, .inl rfl⟩

end

/-! ## What is loaded -/

theorem agree_of_get {s st : State} (hs : ProperState s) (h : ∀ q, Dict.get? st q = Dict.get? s q) (hk : (Dict.keys st).Nodup) :
    SameStates s st :=
  ⟨hs.keys, hk, fun k => by
    rw [h k]
    exact (SameStates.refl hs).same k⟩

theorem load_copy_dict {d : Disk} {g : NCFile} {s : State} (hc : CopyOf false g s) (hl : Loadable s)
    (hd : d .main = some (.whole false g)) :
    ∃ st, restartLoad d = .ok st ∧ (∀ q, Dict.get? st q = Dict.get? s q) ∧ (Dict.keys st).Nodup := by
  obtain ⟨st, h1, h2⟩ := load_copy hc hl hd
  refine ⟨st, h1, h2, ?_⟩
  unfold restartLoad at h1
  rw [hd] at h1
  dsimp only at h1
  split at h1
  · cases h1
  · obtain ⟨t, -, h1⟩ := Exc.bind_ok_iff.1 h1
    cases h1
    refine Dict.nodup_keys_set ?_ _ _
    unfold Dict.keys
    rw [List.map_map]
    exact hc.nodup.sublist (List.filter_sublist.map _)

theorem onlyDates_put {d : Disk} (h : OnlyDates d) (n : RName) {x : Option RFile} (hx : ∀ g, x ≠ some (.whole true g)) :
    OnlyDates (d.put n x) := by
  intro k g
  unfold Disk.put
  split
  · exact hx g
  · exact h k g

theorem onlyDates_rename {d : Disk} (h : OnlyDates d) (a b : RName) : OnlyDates (d.rename a b) :=
  onlyDates_put (onlyDates_put h b (h a)) a fun _ => by simp

theorem onlyDates_last {d : Disk} {l : List Disk} (h : OnlyDates d) (hl : ∀ d ∈ l, OnlyDates d) : OnlyDates (lastDisk d l) := by
  rcases lastDisk_mem d l with e | e
  · rw [e]; exact h
  · exact hl _ e

theorem onlyDates_swap {d : Disk} (h : OnlyDates d) : ∀ d' ∈ swapFiles d, OnlyDates d' := by
  have ha : ∀ d' ∈ moveAside d, OnlyDates d' := by
    intro d' hd'
    unfold moveAside at hd'
    split at hd'
    · rw [List.mem_singleton] at hd'
      rw [hd']
      exact onlyDates_rename h _ _
    · cases hd'
  have h1 : OnlyDates ((lastDisk d (moveAside d)).rename .new .main) := onlyDates_rename (onlyDates_last h ha) _ _
  intro d' hd'
  unfold swapFiles at hd'
  dsimp only at hd'
  rw [List.append_assoc, List.mem_append, List.mem_append, List.mem_singleton] at hd'
  rcases hd' with hd' | rfl | hd'
  · exact ha _ hd'
  · exact h1
  · unfold removeOld at hd'
    split at hd'
    · rw [List.mem_singleton] at hd'
      rw [hd']
      exact onlyDates_put h1 _ fun _ => by simp
    · cases hd'

theorem onlyDates_store {order : SetOrder} {d : Disk} (h : OnlyDates d) {s : State} (hs : RestartOk s) :
    ∀ d' ∈ (restartStore order false d s).1, OnlyDates d' := by
  rcases restartStore_cases order false d hs with ⟨e, h1, -⟩ | ⟨-, e, h1⟩ | ⟨-, g, -, h1⟩
  · rw [h1]
    intro d' hd'
    cases hd'
  · rw [h1]
    intro d' hd'
    rw [List.mem_singleton] at hd'
    rw [hd']
    exact onlyDates_put h _ fun _ => by simp
  · rw [h1]
    have hw : OnlyDates (d.put .new (some (.whole false g))) := onlyDates_put h _ fun _ => by simp
    intro d' hd'
    rw [List.mem_append] at hd'
    rcases hd' with hd' | hd'
    · simp only [List.mem_cons, List.not_mem_nil, or_false] at hd'
      rcases hd' with rfl | rfl
      · exact onlyDates_put h _ fun _ => by simp
      · exact hw
    · exact onlyDates_swap hw d' hd'

theorem onlyDates_after (order : SetOrder) : ∀ (evs : List REvent) (h0 : RHist), OnlyDates h0.disk →
    (∀ deltas s stop, .store deltas s stop ∈ evs → deltas = false ∧ RestartOk s) →
    OnlyDates (evs.foldl (REvent.run order) h0).disk := by
  intro evs
  induction evs with
  | nil => exact fun _ h _ => h
  | cons ev evs ih =>
    intro h0 hd hev
    refine ih _ ?_ fun dl s st hm => hev dl s st (List.mem_cons_of_mem _ hm)
    cases ev with
    | store deltas s stop =>
      obtain ⟨rfl, hs⟩ := hev deltas s stop List.mem_cons_self
      cases stop with
      | none => exact onlyDates_last hd (onlyDates_store hd hs)
      | some k => exact onlyDates_last hd fun d' hd' => onlyDates_store hd hs d' (List.mem_of_mem_take hd')
    | removeNew => exact onlyDates_put hd _ fun _ => by simp
    | restoreOld =>
      unfold REvent.run
      dsimp only
      split
      · exact onlyDates_rename hd _ _
      · exact hd

theorem stored_from (order : SetOrder) : ∀ (evs : List REvent) (h0 : RHist) (sb : State × Bool),
    sb ∈ (evs.foldl (REvent.run order) h0).stored → sb ∈ h0.stored ∨ ∃ deltas stop, REvent.store deltas sb.1 stop ∈ evs := by
  intro evs
  induction evs with
  | nil => exact fun _ _ h => .inl h
  | cons ev evs ih =>
    intro h0 sb h
    rcases ih _ sb h with h | ⟨dl, st, h⟩
    · have one : sb ∈ h0.stored ∨ ∃ deltas stop, REvent.store deltas sb.1 stop = ev := by
        cases ev with
        | store deltas s stop =>
          cases stop with
          | none =>
            rcases List.mem_append.1 (show sb ∈ h0.stored ++ [_] from h) with h | h
            · exact .inl h
            · rw [List.mem_singleton] at h
              subst h
              exact .inr ⟨_, _, rfl⟩
          | some k =>
            rcases List.mem_append.1 (show sb ∈ h0.stored ++ [_] from h) with h | h
            · exact .inl h
            · rw [List.mem_singleton] at h
              subst h
              exact .inr ⟨_, _, rfl⟩
        | removeNew => exact .inl h
        | restoreOld =>
          left
          unfold REvent.run at h
          dsimp only at h
          split at h
          · exact h
          · exact h
      rcases one with h | ⟨dl, st, h⟩
      · exact .inl h
      · exact .inr ⟨dl, st, h ▸ List.mem_cons_self ..⟩
    · exact .inr ⟨dl, st, List.mem_cons_of_mem _ h⟩

/-! ## Continuing -/

section
variable {σ τ : Type} {call : τ → σ → State → Int → τ × σ × State × Except Err (Dict DataArray × State)} {dt : Int}
  {M : τ → τ → Prop} {x0 : τ} {w0 : σ} {s0 : State}
  (hc : ∀ x x' w w' s s', M x x' → SameStates s s' → CallSim M (call x w s dt) (call x' w' s' dt))
  (hsymm : ∀ x x', M x x' → M x' x) (hnew : M x0 x0) (hone : ∀ x x', M x x' → M x x0) (hs : ProperState s0)

include hc hnew hs in
theorem run_proper {k : Nat} {r : τ × σ × State} (hk : runClock call dt k x0 w0 s0 = some r) :
    M r.1 r.1 ∧ ProperState r.2.2 := by
  obtain ⟨r', h1, h2, h3⟩ := runClock_sim hc k x0 x0 w0 w0 s0 s0 hnew (.refl hs) r hk
  rw [hk] at h1
  cases h1
  exact ⟨h2, h3.same.proper h3.left⟩

include hc hsymm hnew hone hs in
theorem continued_same {k N : Nat} (hkN : k ≤ N) {x : τ} {w : σ} {s st : State}
    (hk : runClock call dt k x0 w0 s0 = some (x, w, s)) (hst : SameStates s st) (w' : σ) :
    SameEnds (runClock call dt N x0 w0 s0) (runClock call dt (N - k) x0 w' st) := by
  have hM := (run_proper hc hnew hs hk).1
  have e : runClock call dt N x0 w0 s0 = runClock call dt (N - k) x w s := by
    conv_lhs => rw [← Nat.add_sub_cancel' hkN]
    rw [runClock_add, hk]
    rfl
  rw [e]
  refine sameEnds_of_sim ?_ ?_
  · intro r hr
    obtain ⟨r', h1, -, h3⟩ := runClock_sim hc (N - k) x x0 w w' s st (hone _ _ hM) hst r hr
    exact ⟨r', h1, h3⟩
  · intro r hr
    obtain ⟨r', h1, -, h3⟩ := runClock_sim hc (N - k) x0 x w' w st s (hsymm _ _ (hone _ _ hM)) hst.symm r hr
    exact ⟨r', h1, h3⟩

include hc hsymm hnew hone hs in
theorem continued_after_crashes {N : Nat} (order : SetOrder) (d : Disk) (hmain : d .main ≠ some .broken)
    (hold : d .old ≠ some .broken) (hdates : OnlyDates d) {evs : List REvent}
    (hev : StoresOfRun (fun k => runClock call dt k x0 w0 s0) N evs) {pre post : List (State × Bool)} {s : State}
    (hret : (restartAfter order d evs).stored = pre ++ (s, true) :: post) (w' : σ) :
    ∃ s' ∈ s :: post.map (·.1), ∃ st k x w, restartLoad (restartAfter order d evs).disk.toLoad = .ok st ∧
      (∀ q, Dict.get? st q = Dict.get? s' q) ∧ k ≤ N ∧ runClock call dt k x0 w0 s0 = some (x, w, s') ∧
      SameEnds (runClock call dt N x0 w0 s0) (runClock call dt (N - k) x0 w' st) := by
  obtain ⟨-, hsafe⟩ := restart_crash_safe order d hmain hold evs fun dl s st hm => (hev dl s st hm).2.1
  obtain ⟨x, hx, s', hs', dl, g, rfl, hcopy⟩ := hsafe pre s post hret
  have hod : OnlyDates (restartAfter order d evs).disk := onlyDates_after order evs _ hdates fun dl s st hm =>
    ⟨(hev dl s st hm).1, (hev dl s st hm).2.1⟩
  have hload : (restartAfter order d evs).disk.toLoad .main = some (.whole dl g) := by
    unfold Disk.toLoad Disk.isFile
    rcases hx with hx | ⟨hx, hx'⟩
    · rw [hx, if_pos (by simp)]
      exact hx
    · rw [hx, if_neg (by simp)]
      exact hx'
  have hdl : dl = false := by
    rcases hx with hx | ⟨-, hx⟩ <;> cases dl <;> first | rfl | exact absurd hx (hod _ _)
  subst hdl
  have hin : ∃ b, (s', b) ∈ (restartAfter order d evs).stored := by
    rw [hret]
    rcases List.mem_cons.1 hs' with rfl | hs'
    · exact ⟨true, List.mem_append_right _ List.mem_cons_self⟩
    · obtain ⟨⟨s1, b⟩, hm, rfl⟩ := List.mem_map.1 hs'
      exact ⟨b, List.mem_append_right _ (List.mem_cons_of_mem _ hm)⟩
  obtain ⟨b, hin⟩ := hin
  obtain ⟨dl, stop, hstore⟩ : ∃ dl stop, REvent.store dl s' stop ∈ evs := by
    rcases stored_from order evs _ _ hin with h | h
    · cases h
    · exact h
  obtain ⟨-, -, hl, k, y, w, hkN, hk⟩ := hev dl s' stop hstore
  obtain ⟨st, h1, h2, h3⟩ := load_copy_dict hcopy hl hload
  exact ⟨s', hs', st, k, y, w, h1, h2, hkN, hk,
    continued_same hc hsymm hnew hone hs hkN hk (agree_of_get (run_proper hc hnew hs hk).2 h2 h3) w'⟩

end

section
variable {σ : Type} {R : Registry} (hR : R.Faithful) {cs : List (Comp σ)} (hi : ∀ c ∈ cs, c.Independent R)
  (hd : cs.Pairwise DiagnosticsApart) {state : State} (hs : ProperState state) (inP outP : PropDict) (inst : String)
  (tid : Bool) (dt : Int) {N : Nat} (w w' : σ) (order : SetOrder) (disk : Disk) (hmain : disk .main ≠ some .broken)
  (hold : disk .old ≠ some .broken) (hdates : OnlyDates disk) {evs : List REvent}
include hR hi hd hs hmain hold hdates

/-- **C106, SSPRungeKutta** (two or three stages).  States of a run of `N` steps were given to a
RestartMonitor; some stores may have been interrupted at any point.  If a store returned, a new
process can load (from `<f>`, or from `<f>.old` moved back) exactly that state or one stored later,
and continues from it, with new components and a new stepper, to the end of the uninterrupted run. -/
theorem ssprk_restarts (three : Bool) {ab : AB} (hab : AB.make 1 = .ok ab)
    (hev : StoresOfRun (fun k => runClock (tsCall R inP outP inst tid (sspCall R (callImplicitComposite R cs) three)) dt k ab w state) N evs)
    {pre post : List (State × Bool)} {s : State} (hret : (restartAfter order disk evs).stored = pre ++ (s, true) :: post) :
    ∃ s' ∈ s :: post.map (·.1), ∃ st k x v, restartLoad (restartAfter order disk evs).disk.toLoad = .ok st ∧
      (∀ q, Dict.get? st q = Dict.get? s' q) ∧ k ≤ N ∧
      runClock (tsCall R inP outP inst tid (sspCall R (callImplicitComposite R cs) three)) dt k ab w state = some (x, v, s') ∧
      SameEnds (runClock (tsCall R inP outP inst tid (sspCall R (callImplicitComposite R cs) three)) dt N ab w state)
        (runClock (tsCall R inP outP inst tid (sspCall R (callImplicitComposite R cs) three)) dt (N - k) ab w' st) :=
  continued_after_crashes (M := fun a a' => OneStep dt a ∧ OneStep dt a')
    (fun _ _ w w' _ _ hM h => tsCall_sim' hR tid (ssprk_one_sim hR (components_in_any_order hR (.refl _) hi hd)
      (composite_prog_dicts R cs) (composite_prog_dicts R cs) three hM w w' h))
    (fun _ _ h => h.symm) ⟨oneStep_new hab, oneStep_new hab⟩ (fun _ _ h => ⟨h.1, oneStep_new hab⟩) hs order disk hmain hold
    hdates hev hret w'

/-- **C106, AdamsBashforth of order 1** (EulerForward). -/
theorem euler_restarts {ab : AB} (hab : AB.make 1 = .ok ab)
    (hev : StoresOfRun (fun k => runClock (tsCall R inP outP inst tid (abCall R (callImplicitComposite R cs))) dt k ab w state) N evs)
    {pre post : List (State × Bool)} {s : State} (hret : (restartAfter order disk evs).stored = pre ++ (s, true) :: post) :
    ∃ s' ∈ s :: post.map (·.1), ∃ st k x v, restartLoad (restartAfter order disk evs).disk.toLoad = .ok st ∧
      (∀ q, Dict.get? st q = Dict.get? s' q) ∧ k ≤ N ∧
      runClock (tsCall R inP outP inst tid (abCall R (callImplicitComposite R cs))) dt k ab w state = some (x, v, s') ∧
      SameEnds (runClock (tsCall R inP outP inst tid (abCall R (callImplicitComposite R cs))) dt N ab w state)
        (runClock (tsCall R inP outP inst tid (abCall R (callImplicitComposite R cs))) dt (N - k) ab w' st) :=
  continued_after_crashes (M := fun a a' => OneStep dt a ∧ OneStep dt a')
    (fun _ _ w w' _ _ hM h => tsCall_sim' hR tid (ab_one_sim hR (components_in_any_order hR (.refl _) hi hd)
      (composite_prog_dicts R cs) (composite_prog_dicts R cs) hM w w' h))
    (fun _ _ h => h.symm) ⟨oneStep_new hab, oneStep_new hab⟩ (fun _ _ h => ⟨h.1, oneStep_new hab⟩) hs order disk hmain hold
    hdates hev hret w'

end

section
variable {σ : Type} {R : Registry} (hR : R.Faithful) {cs : List (Comp σ)} (hi : ∀ c ∈ cs, c.Independent R)
  (hd : cs.Pairwise DiagnosticsApart) (inP outP : PropDict) (inst : String) (tid : Bool) (dt : Int) (n : Nat) (w w' : σ)
  (order : SetOrder) (disk : Disk) {s : State} (hs : ProperState s) (hok : RestartOk s) (hl : Loadable s)
  (hret : (restartStore order false disk s).2 = .ok ())

include hs hok hl hret in
theorem loaded_same : ∃ st, restartLoad (lastDisk disk (restartStore order false disk s).1) = .ok st ∧ SameStates s st := by
  obtain ⟨g, hg, h1, -, -⟩ := store_leaves hok hret
  obtain ⟨st, e1, e2, e3⟩ := load_copy_dict hg hl h1
  exact ⟨st, e1, agree_of_get hs e2 e3⟩

include hR hi hd hs hok hl hret

/-- **C106, AdamsBashforth of any order and Leapfrog.**  A run continued from a stored state is a
run that a new stepper makes from that state.  (For more than one level of time it is not the
uninterrupted run, `ab_restart_differs` and `leapfrog_restart_differs`.) -/
theorem restart_is_new_run_partial :
    ∃ st, restartLoad (lastDisk disk (restartStore order false disk s).1) = .ok st ∧
      (∀ k ab, AB.make k = .ok ab →
        SameEnds (runClock (tsCall R inP outP inst tid (abCall R (callImplicitComposite R cs))) dt n ab w s)
          (runClock (tsCall R inP outP inst tid (abCall R (callImplicitComposite R cs))) dt n ab w' st)) ∧
      ∀ strength alpha,
        SameEnds (runClock (tsCall R inP outP inst tid (LF.call R (callImplicitComposite R cs))) dt n { strength, alpha } w s)
          (runClock (tsCall R inP outP inst tid (LF.call R (callImplicitComposite R cs))) dt n { strength, alpha } w' st) := by
  obtain ⟨st, h1, h2⟩ := loaded_same order disk hs hok hl hret
  have hc := components_in_any_order hR (.refl cs) hi hd
  have hcd := composite_prog_dicts R cs
  refine ⟨st, h1, fun k ab hab => ?_, fun strength alpha => ?_⟩
  · have hnew : AlikeAB ab ab := .new _ (AB.make_order hab).2.2.2
    have sim := runClock_sim (M := AlikeAB) (dt := dt)
      (fun x x' w w' s s' hM hs => tsCall_sim' hR (inP := inP) (outP := outP) (inst := inst) tid (ab_sim hR hc hcd hcd hM w w' hs dt))
    refine sameEnds_of_sim (fun r hr => ?_) fun r hr => ?_
    · obtain ⟨r', e1, -, e3⟩ := sim n ab ab w w' s st hnew h2 r hr
      exact ⟨r', e1, e3⟩
    · obtain ⟨r', e1, -, e3⟩ := sim n ab ab w' w st s hnew h2.symm r hr
      exact ⟨r', e1, e3⟩
  · have hnew : AlikeLF { strength, alpha } { strength, alpha } := ⟨rfl, rfl, rfl, .none⟩
    have sim := runClock_sim (M := AlikeLF) (dt := dt)
      (fun x x' w w' s s' hM hs => tsCall_sim' hR (inP := inP) (outP := outP) (inst := inst) tid (lf_sim hR hc hcd hcd hM w w' hs dt))
    refine sameEnds_of_sim (fun r hr => ?_) fun r hr => ?_
    · obtain ⟨r', e1, -, e3⟩ := sim n _ _ w w' s st hnew h2 r hr
      exact ⟨r', e1, e3⟩
    · obtain ⟨r', e1, -, e3⟩ := sim n _ _ w' w st s hnew h2.symm r hr
      exact ⟨r', e1, e3⟩

end

namespace Demo

/-- A check of the conditions on a state. -/
def restartable (L : String → Nat) (s : State) : Bool :=
  decide ((Dict.keys s).Nodup ∧ "" ∉ Dict.keys s) &&
  (match Dict.get? s "time" with | some (.time t) => decide (t.natAbs ≤ 9223372036854775) | _ => false) &&
  s.all fun kv => decide (kv.1 = "time") ||
    match kv.2 with
    | .time _ => false
    | .da a => decide (a.dims.Nodup ∧ "time" ∉ a.dims ∧ "*" ∉ a.dims ∧ a.arr.shape ≠ [] ∧ a.arr.shape = a.dims.map L ∧
        (∀ q ∈ Dict.keys s, q ∉ a.dims)) &&
      match Dict.get? a.attrs "units" with
      | some u => decide (u ∉ ["days", "hours", "minutes", "seconds", "milliseconds", "microseconds", "nanoseconds"])
      | none => true

theorem restartable_spec {L : String → Nat} {s : State} (h : restartable L s = true) :
    Storable s ∧ Loadable s ∧ ProperState s := by
  unfold restartable at h
  simp only [Bool.and_eq_true, decide_eq_true_eq, List.all_eq_true, Bool.or_eq_true] at h
  obtain ⟨⟨⟨h1, h2⟩, h3⟩, h4⟩ := h
  obtain ⟨t, ht, hr⟩ : ∃ t, Dict.get? s "time" = some (.time t) ∧ t.natAbs ≤ 9223372036854775 := by
    revert h3
    rcases Dict.get? s "time" with _ | ⟨_ | t⟩ <;> intro h3
    · cases h3
    · cases h3
    · exact ⟨t, rfl, of_decide_eq_true h3⟩
  have hone : ∀ q a, Dict.get? s q = some (.da a) → (a.dims.Nodup ∧ "time" ∉ a.dims ∧ "*" ∉ a.dims ∧ a.arr.shape ≠ [] ∧
      a.arr.shape = a.dims.map L ∧ (∀ q ∈ Dict.keys s, q ∉ a.dims)) ∧ ∀ u, Dict.get? a.attrs "units" = some u →
      u ∉ ["days", "hours", "minutes", "seconds", "milliseconds", "microseconds", "nanoseconds"] := by
    intro q a hq
    rcases h4 (q, .da a) (Dict.mem_of_get? hq) with e | e
    · dsimp only at e
      subst e
      rw [hq] at ht
      cases ht
    · dsimp only at e
      rw [Bool.and_eq_true, decide_eq_true_eq] at e
      refine ⟨e.1, fun u hu => ?_⟩
      have e2 := e.2
      rw [hu] at e2
      exact of_decide_eq_true e2
  refine ⟨⟨⟨h1, fun n a ha => ⟨?_, (hone n a ha).1.2.1⟩⟩, ⟨t, ht⟩, h2, L, fun q v hv hq => ?_⟩, ⟨?_, ?_, ?_⟩, ⟨h1, ?_, ?_, ?_⟩⟩
  · rw [(hone n a ha).1.2.2.2.2.1, List.length_map]
  · cases v with
    | time t' =>
      rcases h4 (q, .time t') (Dict.mem_of_get? hv) with e | e
      · exact absurd e hq
      · cases e
    | da a => exact ⟨a, rfl, (hone q a hv).1.2.2.2.1, (hone q a hv).1.2.2.2.2.1⟩
  · intro t' ht'
    rw [ht] at ht'
    cases ht'
    exact hr
  · exact fun q q' a hq _ ha => (hone q' a ha).1.2.2.2.2.2 q hq
  · exact fun q a u ha hu => (hone q a ha).2 u hu
  · exact fun n a ha => ⟨by rw [(hone n a ha).1.2.2.2.2.1, List.length_map], (hone n a ha).1.1⟩
  · exact fun n a ha => (hone n a ha).1.2.2.1
  · intro a ha
    rw [ht] at ha
    cases ha

/-- The lengths of the dimensions of `state`, and a place in `T`. -/
def lens (d : String) : Nat := if d = "z" then 3 else 2
def place (d : String) : Nat := if d = "z" then 2 else if d = "x" then 1 else 0

/-- The runs end with different values of `T`. -/
def differ {τ σ τ' σ' : Type} (a : Option (τ × σ × State)) (b : Option (τ' × σ' × State)) : Bool :=
  a.any fun r => b.any fun r' =>
    match (Dict.get? r.2.2 "T" : Option Val), (Dict.get? r'.2.2 "T" : Option Val) with
    | some (.da x), some (.da y) => decide ((∀ d ∈ x.dims, place d < x.len d) ∧ x.at' place ≠ y.at' place)
    | _, _ => false

theorem differ_spec {τ σ τ' σ' : Type} {a : Option (τ × σ × State)} {b : Option (τ' × σ' × State)} (h : differ a b = true) :
    ¬ SameEnds a b := by
  intro hs
  cases a with
  | none => cases h
  | some r =>
    cases b with
    | none => cases h
    | some r' =>
      have hT : SameNamedVal (Dict.get? r.2.2 "T") (Dict.get? r'.2.2 "T") := hs "T"
      unfold differ at h
      rw [Option.any_some, Option.any_some] at h
      revert h hT
      rcases Dict.get? r.2.2 "T" with _ | ⟨x | _⟩ <;> rcases Dict.get? r'.2.2 "T" with _ | ⟨y | _⟩ <;> intro h hT <;>
        try cases h
      rw [decide_eq_true_eq] at h
      exact h.2 (hT.val place h.1)

theorem SameEnds.trans' {τ σ τ' σ' τ'' σ'' : Type} {a : Option (τ × σ × State)} {b : Option (τ' × σ' × State)}
    {c : Option (τ'' × σ'' × State)} (h : differ a b = true) (hbc : SameEnds b c) : ¬ SameEnds a c := by
  intro hs
  cases a with
  | none => cases h
  | some r =>
    cases b with
    | none => cases h
    | some r' =>
      cases c with
      | none => cases hs
      | some r'' =>
        have hT : SameNamedVal (Dict.get? r.2.2 "T") (Dict.get? r''.2.2 "T") := hs "T"
        have hT' : SameNamedVal (Dict.get? r'.2.2 "T") (Dict.get? r''.2.2 "T") := hbc "T"
        unfold differ at h
        rw [Option.any_some, Option.any_some] at h
        revert h hT hT'
        rcases Dict.get? r.2.2 "T" with _ | ⟨x | _⟩ <;> rcases Dict.get? r'.2.2 "T" with _ | ⟨y | _⟩ <;>
          rcases Dict.get? r''.2.2 "T" with _ | ⟨z | _⟩ <;> intro h hT hT' <;>
          first | cases h | exact (hT : False).elim | exact (hT' : False).elim | skip
        rw [decide_eq_true_eq] at h
        refine h.2 ((hT.val place h.1).trans (hT'.val place fun d hd => ?_).symm)
        have hd' : d ∈ x.dims := hT.dims.mem_iff.2 (hT'.dims.mem_iff.1 hd)
        rw [hT'.len d hd, ← hT.len d hd']
        exact h.1 d hd'

/-- The components of the counterexamples. -/
abbrev heating : Prog Nat := callImplicitComposite reg [warm1, warm2]

end Demo

open Demo in
/-- **C106 fails** for AdamsBashforth of the orders 2 to 4: a run of two steps, stored, loaded and
continued with a new stepper after the first, ends elsewhere. -/
theorem ab_restart_differs (k : Int) (hk : 2 ≤ k ∧ k ≤ 4) :
    ∃ ab x w s st, AB.make k = .ok ab ∧
      runClock (tsCall reg [] [] "" false (abCall reg heating)) 1000000 1 ab 0 state = some (x, w, s) ∧
      (restartStore order false noFiles s).2 = .ok () ∧
      restartLoad (lastDisk noFiles (restartStore order false noFiles s).1) = .ok st ∧
      ¬ SameEnds (runClock (tsCall reg [] [] "" false (abCall reg heating)) 1000000 2 ab 0 state)
        (runClock (tsCall reg [] [] "" false (abCall reg heating)) 1000000 1 ab 0 st) := by
  have key : ∀ n ∈ [2, 3, 4], ((runClock (tsCall reg [] [] "" false (abCall reg heating)) 1000000 1 { order := n } 0 state).any
      fun r => restartable lens r.2.2 &&
        differ (runClock (tsCall reg [] [] "" false (abCall reg heating)) 1000000 2 { order := n } 0 state)
          (runClock (tsCall reg [] [] "" false (abCall reg heating)) 1000000 1 { order := n } 0 r.2.2)) = true := by
    decide +kernel
  have hmake : AB.make k = .ok { order := k.toNat } := by
    unfold AB.make
    rw [if_pos ⟨by omega, hk.2⟩]
  have hmem : k.toNat ∈ [2, 3, 4] := by
    simp only [List.mem_cons, List.not_mem_nil, or_false]
    omega
  have h := key k.toNat hmem
  cases hr : runClock (tsCall reg [] [] "" false (abCall reg heating)) 1000000 1 { order := k.toNat } 0 state with
  | none => rw [hr] at h; cases h
  | some r =>
    rw [hr, Option.any_some, Bool.and_eq_true] at h
    obtain ⟨x, w, s⟩ := r
    obtain ⟨h1, h2, h3⟩ := restartable_spec h.1
    have hret := store_returns order false noFiles s h1 rfl
    obtain ⟨st, e1, e2, -⟩ := restart_is_new_run_partial reg_faithful warm_independent warm_apart [] [] "" false 1000000 1 0 0
      order noFiles h3 h1.ok h2 hret
    exact ⟨_, x, w, s, st, hmake, hr, hret, e1, SameEnds.trans' h.2 (e2 k _ hmake)⟩

open Demo in
/-- **C106 fails** for Leapfrog. -/
theorem leapfrog_restart_differs :
    ∃ x w s st, runClock (tsCall reg [] [] "" false (LF.call reg heating)) 1000000 1 {} 0 state = some (x, w, s) ∧
      (restartStore order false noFiles s).2 = .ok () ∧
      restartLoad (lastDisk noFiles (restartStore order false noFiles s).1) = .ok st ∧
      ¬ SameEnds (runClock (tsCall reg [] [] "" false (LF.call reg heating)) 1000000 2 {} 0 state)
        (runClock (tsCall reg [] [] "" false (LF.call reg heating)) 1000000 1 {} 0 st) := by
  have h : ((runClock (tsCall reg [] [] "" false (LF.call reg heating)) 1000000 1 {} 0 state).any
      fun r => restartable lens r.2.2 &&
        differ (runClock (tsCall reg [] [] "" false (LF.call reg heating)) 1000000 2 {} 0 state)
          (runClock (tsCall reg [] [] "" false (LF.call reg heating)) 1000000 1 {} 0 r.2.2)) = true := by
    decide +kernel
  cases hr : runClock (tsCall reg [] [] "" false (LF.call reg heating)) 1000000 1 {} 0 state with
  | none => rw [hr] at h; cases h
  | some r =>
    rw [hr, Option.any_some, Bool.and_eq_true] at h
    obtain ⟨x, w, s⟩ := r
    obtain ⟨h1, h2, h3⟩ := restartable_spec h.1
    have hret := store_returns order false noFiles s h1 rfl
    obtain ⟨st, e1, -, e2⟩ := restart_is_new_run_partial reg_faithful warm_independent warm_apart [] [] "" false 1000000 1 0 0
      order noFiles h3 h1.ok h2 hret
    exact ⟨x, w, s, st, rfl, hret, e1, SameEnds.trans' h.2 (e2 _ _)⟩

open Demo in
/-- A run of two steps with SSPRungeKutta in which the state after the first is stored, and a second
store, of the last state, is interrupted: all hypotheses of `ssprk_restarts` hold, and the run ends. -/
example : ∃ s1 s2,
    StoresOfRun (fun k => runClock (tsCall reg [] [] "" false (sspCall reg heating false)) 1000000 k { order := 1 } 0 state) 2
      [.store false s1 none, .store false s2 (some 3)] ∧
    (restartAfter order noFiles [.store false s1 none, .store false s2 (some 3)]).stored = [(s1, true), (s2, false)] ∧
    (runClock (tsCall reg [] [] "" false (sspCall reg heating false)) 1000000 2 { order := 1 } 0 state).isSome := by
  have h : ((runClock (tsCall reg [] [] "" false (sspCall reg heating false)) 1000000 1 { order := 1 } 0 state).any
      fun r => restartable lens r.2.2 &&
        (runClock (tsCall reg [] [] "" false (sspCall reg heating false)) 1000000 2 { order := 1 } 0 state).any fun r =>
          restartable lens r.2.2) = true := by
    decide +kernel
  cases hr : runClock (tsCall reg [] [] "" false (sspCall reg heating false)) 1000000 1 { order := 1 } 0 state with
  | none => rw [hr] at h; cases h
  | some r =>
    rw [hr, Option.any_some, Bool.and_eq_true] at h
    cases hr2 : runClock (tsCall reg [] [] "" false (sspCall reg heating false)) 1000000 2 { order := 1 } 0 state with
    | none => rw [hr2] at h; cases h.2
    | some r2 =>
      rw [hr2, Option.any_some] at h
      obtain ⟨x, w, s⟩ := r
      obtain ⟨x2, w2, s2⟩ := r2
      obtain ⟨h1, h2, -⟩ := restartable_spec h.1
      obtain ⟨g1, g2, -⟩ := restartable_spec h.2
      refine ⟨s, s2, ?_, ?_, rfl⟩
      · intro dl q stop hm
        simp only [List.mem_cons, List.not_mem_nil, or_false, REvent.store.injEq] at hm
        rcases hm with ⟨rfl, rfl, rfl⟩ | ⟨rfl, rfl, rfl⟩
        · exact ⟨rfl, h1.ok, h2, 1, x, w, by decide, hr⟩
        · exact ⟨rfl, g1.ok, g2, 2, x2, w2, by decide, hr2⟩
      · show [(s, (restartStore order false noFiles s).2.isOk)] ++ [(s2, false)] = _
        rw [store_returns order false noFiles s h1 rfl]
        rfl

end Verif

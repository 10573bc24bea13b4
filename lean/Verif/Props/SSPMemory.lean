import Verif.Props.MonitoredRuns
/-!
# C85 for SSPRungeKutta
-/

namespace Verif

/-- What the components answer depends on the values of the state only. -/
def Answers {σ : Type} (R : Registry) (cs : List (RComp σ)) (dt : Int) (p : State → Except Err TendOut) : Prop :=
  ∀ (m : SMem σ) (s : RState), s.Exists m →
    ((callComposite R cs m s dt).2 >>= fun r => .ok (Dict.mapVal (callComposite R cs m s dt).1.read r.1,
      Dict.mapVal (callComposite R cs m s dt).1.read r.2)) = p (s.read m.ext)

theorem copyUntouched_within (old new : State) (h : ∀ k ∈ Dict.keys old, k ∈ Dict.keys new) :
    copyUntouched old new = new := by
  induction old with
  | nil => rfl
  | cons kv old ih =>
    obtain ⟨k, v⟩ := kv
    rw [copyUntouched, if_pos (h k (by simp [Dict.keys]))]
    exact ih fun k' hk' => h k' (by
      show k' ∈ k :: Dict.keys old
      exact List.mem_cons_of_mem _ hk')

theorem copyUntouched_again (old new : State) : copyUntouched old (copyUntouched old new) = copyUntouched old new :=
  copyUntouched_within _ _ fun _ hk => ((copyUntouched_spec old new).1 _).2 (.inl hk)

theorem abCall_prog {σ σ' : Type} {R : Registry} {P : Prog σ} {P' : Prog σ'} {ab : AB} {s : σ} {s' : σ'} {state : State}
    {dt : Int} (h : (P s state dt).2 = (P' s' state dt).2) :
    (AB.call R P ab s state dt).1 = (AB.call R P' ab s' state dt).1 ∧
    (AB.call R P ab s state dt).2.2 = (AB.call R P' ab s' state dt).2.2 := by
  unfold AB.call
  by_cases hdt : ab.timestep = none ∨ ab.timestep = some dt
  · rw [if_pos hdt, if_pos hdt, h]
    cases (P' s' state dt).2 with
    | error e => exact ⟨rfl, rfl⟩
    | ok r =>
      dsimp only
      cases convertTendencies R state r.1 with
      | error e => exact ⟨rfl, rfl⟩
      | ok t =>
        dsimp only
        cases performStep ab.order (ab.hist ++ [t]) state dt with
        | error e => exact ⟨rfl, rfl⟩
        | ok new => exact ⟨rfl, rfl⟩
  · rw [if_neg hdt, if_neg hdt]
    exact ⟨rfl, rfl⟩

theorem eulerCall_eq {σ : Type} (R : Registry) (P : Prog σ) (ab : AB) (s : σ) (state : State) (dt : Int) :
    eulerCall R P ab s state dt = AB.call R P ab s state dt := by
  have h : ∀ r, (AB.call R P ab s state dt).2.2 = .ok r → copyUntouched state r.2 = r.2 := by
    intro r
    unfold AB.call
    by_cases hdt : ab.timestep = none ∨ ab.timestep = some dt
    · rw [if_pos hdt]
      cases (P s state dt).2 with
      | error e => exact fun h => (by cases h)
      | ok r =>
        dsimp only
        cases convertTendencies R state r.1 with
        | error e => exact fun h => (by cases h)
        | ok t =>
          dsimp only
          cases performStep ab.order (ab.hist ++ [t]) state dt with
          | error e => exact fun h => (by cases h)
          | ok new =>
            intro h
            cases h
            exact copyUntouched_again _ _
    · rw [if_neg hdt]
      exact fun h => (by cases h)
  unfold eulerCall
  dsimp only
  rcases hz : AB.call R P ab s state dt with ⟨a, b, (e | r)⟩
  · rfl
  · rw [hz] at h
    dsimp only
    rw [Exc.ok_bind, h r rfl]

theorem abCallH_values {σ : Type} {R : Registry} {cs : List (RComp σ)} (hcs : ∀ f ∈ cs, Considerate f) {dt : Int}
    {p : State → Except Err TendOut} (hp : Answers R cs dt p) {ab : ABH} {v : AB} {m : SMem σ} (h : ab.Holds m v)
    {s : RState} (hs : s.Exists m) :
    (ABH.call R cs ab m s dt).1.Holds (ABH.call R cs ab m s dt).2.1
      (eulerCall R (fun _ x _ => ((), p x)) v () (s.read m.ext) dt).1 ∧
    readResult (ABH.call R cs ab m s dt).2.1 (ABH.call R cs ab m s dt).2.2 =
      (eulerCall R (fun _ x _ => ((), p x)) v () (s.read m.ext) dt).2.2 := by
  obtain ⟨c1, c2, c3⟩ := callComposite_considerate (R := R) hcs m s dt
  have hr := ABH.call_refines (R := R) (cs := cs) (e := ⟨id, s, dt⟩) h
    ⟨fun k l hkl => ⟨Nat.lt_of_lt_of_le (hs k l hkl) c1, c2 l (hs k l hkl)⟩,
      fun r hr k l hkl => c3 r hr _ hkl l rfl⟩
  have ha : ((⟨id, s, dt⟩ : Event σ).seen R cs m).answer = p (s.read m.ext) := hp m s hs
  rw [ha] at hr
  rw [eulerCall_eq]
  have he := abCall_prog (R := R) (P := fun (_ : Unit) (_ : State) (_ : Int) => ((), p (s.read m.ext)))
    (P' := fun (_ : Unit) (x : State) (_ : Int) => ((), p x)) (ab := v) (s := ()) (s' := ()) (state := s.read m.ext)
    (dt := dt) rfl
  rw [← he.1, ← he.2]
  exact hr

/-- What can be read of a result stays the same while its arrays are not changed. -/
theorem readDiag_kept {σ : Type} {m m' : SMem σ} {d : Dict Ref} (hd : ∀ kv ∈ d, ∃ l, kv.2 = Ref.ext l ∧ m'.ext l = m.ext l) :
    Dict.mapVal m'.read d = Dict.mapVal m.read d := by
  apply mapVal_congr
  intro kv hkv
  obtain ⟨l, hl, he⟩ := hd kv hkv
  rw [hl]
  exact he

theorem abCallH_diag {σ : Type} {R : Registry} {cs : List (RComp σ)} {ab : ABH} {m : SMem σ} {s : RState} {dt : Int}
    {d : Dict Ref} {new : RState} (h : (ABH.call R cs ab m s dt).2.2 = .ok (d, new)) :
    ∀ kv ∈ d, ∃ l, kv.2 = Ref.ext l := by
  have o2 := (callComposite_spec R cs m s dt).2
  unfold ABH.call at h
  split at h
  · revert h
    rcases hz : callComposite R cs m s dt with ⟨m1, (err | ⟨t, d1⟩)⟩
    · exact fun h => (by cases h)
    · rw [hz] at o2
      dsimp only
      rcases hy : convertH R s t m1 with ⟨m2, (err | t')⟩
      · exact fun h => (by cases h)
      · dsimp only
        split
        · exact fun h => (by cases h)
        · intro h
          cases h
          exact (o2 _ rfl).2.2
  · cases h

theorem Holds.alloc {σ : Type} {ab : ABH} {m : SMem σ} {v : AB} (h : ab.Holds m v) (s : State) :
    ab.Holds (allocState s m).1 v :=
  h.mono (by rw [KeepsOwn, (allocState_spec s m).2.1]; exact List.prefix_refl _)

/-- **C85, SSPRungeKutta.**  With components whose answers depend on values, it returns
what the model with arrays as values returns, whichever arrays the state has. -/
theorem ssprk_returns_values {σ : Type} (R : Registry) (cs : List (RComp σ)) (hcs : ∀ f ∈ cs, Considerate f) (dt : Int)
    (p : State → Except Err TendOut) (hp : Answers R cs dt p) (three : Bool) (ab : ABH) (v : AB) (m : SMem σ)
    (h : ab.Holds m v) (s : RState) (hs : s.Exists m) :
    (ssprkH R cs three ab m s dt).1.Holds (ssprkH R cs three ab m s dt).2.1
      (ssprkCall R (fun _ x _ => ((), p x)) three v () (s.read m.ext) dt).1 ∧
    readResult (ssprkH R cs three ab m s dt).2.1 (ssprkH R cs three ab m s dt).2.2 =
      (ssprkCall R (fun _ x _ => ((), p x)) three v () (s.read m.ext) dt).2.2 := by
  have T := ab_treads (R := R) hcs dt
  have g1 := T.grow ab m s
  have k1 := fun l hl => T.keep ab m s l hs hl (.inl trivial)
  have n1 := fun d new h => T.made ab m s d new hs h
  have v1 := abCallH_values hcs hp h hs
  have e1 := @abCallH_diag σ R cs ab m s dt
  rcases h1 : ABH.call R cs ab m s dt with ⟨x1, m1, (e | ⟨d1, s1⟩)⟩
  · rw [h1] at v1
    rcases w1 : eulerCall R (fun (_ : Unit) x (_ : Int) => ((), p x)) v () (s.read m.ext) dt with ⟨y1, ⟨⟩, r1⟩
    rw [w1] at v1
    obtain ⟨v1, rfl⟩ := v1
    cases three <;>
      simp only [ssprkH, ssprkCall, ssprk2H, ssprk3H, ssprk2, ssprk3, h1, w1, readResult, Bool.false_eq_true, if_false,
        if_true] <;> exact ⟨v1, rfl⟩
  · rw [h1] at v1 g1 k1 n1 e1
    dsimp only at v1 g1 k1 n1 e1
    have hs1 := (n1 d1 s1 rfl).1
    have hd1 := (n1 d1 s1 rfl).2.1
    have e1 := e1 rfl
    rcases w1 : eulerCall R (fun (_ : Unit) x (_ : Int) => ((), p x)) v () (s.read m.ext) dt with ⟨y1, ⟨⟩, r1⟩
    rw [w1] at v1
    obtain ⟨v1, rfl⟩ := v1
    have g2 := T.grow x1 m1 s1
    have k2 := fun l hl => T.keep x1 m1 s1 l hs1 hl (.inl trivial)
    have n2 := fun d new h => T.made x1 m1 s1 d new hs1 h
    have v2 := abCallH_values hcs hp v1 hs1
    rcases h2 : ABH.call R cs x1 m1 s1 dt with ⟨x2, m2, (e | ⟨d2, s2⟩)⟩
    · rw [h2] at v2
      rcases w2 : eulerCall R (fun (_ : Unit) x (_ : Int) => ((), p x)) y1 () (s1.read m1.ext) dt with ⟨y2, ⟨⟩, r2⟩
      rw [w2] at v2
      obtain ⟨v2, rfl⟩ := v2
      cases three <;>
        simp only [ssprkH, ssprkCall, ssprk2H, ssprk3H, ssprk2, ssprk3, h1, w1, readResult, Exc.ok_bind, h2, w2,
          Bool.false_eq_true, if_false, if_true] <;> exact ⟨v2, rfl⟩
    · rw [h2] at v2 g2 k2 n2
      dsimp only at v2 g2 k2 n2
      have hs2 := (n2 d2 s2 rfl).1
      rcases w2 : eulerCall R (fun (_ : Unit) x (_ : Int) => ((), p x)) y1 () (s1.read m1.ext) dt with ⟨y2, ⟨⟩, r2⟩
      rw [w2] at v2
      obtain ⟨v2, rfl⟩ := v2
      have rs : s.read m2.ext = s.read m.ext := read_congr fun k l hkl => by
        rw [k2 l (Nat.lt_of_lt_of_le (hs k l hkl) g1), k1 l (hs k l hkl)]
      have rd : Dict.mapVal m2.read d1 = Dict.mapVal m1.read d1 := readDiag_kept fun kv hkv => by
        obtain ⟨l, hl⟩ := e1 kv hkv
        exact ⟨l, hl, k2 l (hd1 kv hkv l hl)⟩
      have hd2 : ∀ kv ∈ d1, ∀ l, kv.2 = Ref.ext l → l < m2.world.2 := fun kv hkv l hl =>
        Nat.lt_of_lt_of_le (hd1 kv hkv l hl) g2
      cases three with
      | false =>
        simp only [ssprkH, ssprkCall, ssprk2H, ssprk2, h1, w1, readResult, Exc.ok_bind, h2, w2,
          Bool.false_eq_true, if_false, rs]
        cases ha : (addStates (s.read m.ext) (s2.read m2.ext) : Except Err State) with
        | error e => exact ⟨v2, rfl⟩
        | ok a =>
          simp only [Exc.ok_bind]
          cases hb : scaleState (1 / 2) a with
          | error e => exact ⟨v2, rfl⟩
          | ok out =>
            obtain ⟨a1, -, a3, -⟩ := allocState_spec out m2
            refine ⟨Holds.alloc v2 out, ?_⟩
            dsimp only
            rw [Exc.ok_bind, Exc.ok_bind, a1, ← rd]
            congr 2
            exact readDiag_kept fun kv hkv => by
              obtain ⟨l, hl⟩ := e1 kv hkv
              exact ⟨l, hl, a3 l (hd2 kv hkv l hl)⟩
      | true =>
        simp only [ssprkH, ssprkCall, ssprk3H, ssprk3, h1, w1, readResult, Exc.ok_bind, h2, w2, if_true, rs]
        generalize (scaleState (3 / 4) (s.read m.ext) >>= fun x =>
          scaleState (1 / 4) (s2.read m2.ext) >>= fun y => addStates x y) = mid
        cases mid with
        | error e => exact ⟨v2, rfl⟩
        | ok mid =>
          dsimp only
          obtain ⟨a1, a2, a3, a4⟩ := allocState_spec mid m2
          have v3 := Holds.alloc v2 mid
          have he := allocState_exists mid m2
          revert a1 a2 a3 a4 v3 he
          rcases allocState mid m2 with ⟨m3, s3⟩
          intro a1 a2 a3 a4 v3 he
          dsimp only at a1 a2 a3 a4 v3 he ⊢
          have g4 := T.grow x2 m3 s3
          have k4 := fun l hl => T.keep x2 m3 s3 l he hl (.inl trivial)
          have v4 := abCallH_values hcs hp v3 he
          rw [a1] at v4
          rcases h4 : ABH.call R cs x2 m3 s3 dt with ⟨x4, m4, (e | ⟨d4, s4⟩)⟩
          · rw [h4] at v4
            rcases w4 : eulerCall R (fun (_ : Unit) x (_ : Int) => ((), p x)) y2 () mid dt with ⟨y4, ⟨⟩, r4⟩
            rw [w4] at v4
            obtain ⟨v4, rfl⟩ := v4
            exact ⟨v4, rfl⟩
          · rw [h4] at v4 g4 k4
            dsimp only at g4 k4
            rcases w4 : eulerCall R (fun (_ : Unit) x (_ : Int) => ((), p x)) y2 () mid dt with ⟨y4, ⟨⟩, r4⟩
            rw [w4] at v4
            obtain ⟨v4, rfl⟩ := v4
            dsimp only at v4 ⊢
            have rs4 : s.read m4.ext = s.read m.ext := by
              rw [← rs]
              refine read_congr fun k l hkl => ?_
              have := hs k l hkl
              rw [k4 l (by omega), a3 l (by omega)]
            have rd4 : Dict.mapVal m4.read d1 = Dict.mapVal m1.read d1 := by
              rw [← rd]
              refine readDiag_kept fun kv hkv => ?_
              obtain ⟨l, hl⟩ := e1 kv hkv
              have := hd2 kv hkv l hl
              exact ⟨l, hl, by rw [k4 l (by omega), a3 l (by omega)]⟩
            simp only [readResult, Exc.ok_bind, rs4]
            cases hb : scaleState (1 / 3) (s.read m.ext) with
            | error e => exact ⟨v4, rfl⟩
            | ok a =>
              simp only [Exc.ok_bind]
              cases hc : scaleState (2 / 3) (s4.read m4.ext) with
              | error e => exact ⟨v4, rfl⟩
              | ok b =>
                simp only [Exc.ok_bind]
                cases addStates a b with
                | error e => exact ⟨v4, rfl⟩
                | ok out =>
                  obtain ⟨b1, -, b3, -⟩ := allocState_spec out m4
                  refine ⟨Holds.alloc v4 out, ?_⟩
                  dsimp only
                  rw [Exc.ok_bind, Exc.ok_bind, b1, ← rd4]
                  congr 2
                  refine readDiag_kept fun kv hkv => ?_
                  obtain ⟨l, hl⟩ := e1 kv hkv
                  have := hd2 kv hkv l hl
                  exact ⟨l, hl, b3 l (by omega)⟩

namespace Demo

/-- `T` grows by itself per second. -/
def selfGrowth (s : State) : Except Err TendOut :=
  State.da s "T" >>= fun a => .ok ([("T", { a with attrs := [("units", "K s^-1")] })], [])

/-- The component that says so; it makes a new array. -/
def grower : RComp Unit := fun s _ w =>
  match s.get? "T" with
  | some (.ref l) =>
    (((w.1.1, w.1.2 + 1), fun j => if j = w.1.2 then { w.2 l with attrs := [("units", "K s^-1")] } else w.2 j),
      .ok ([("T", w.1.2)], []))
  | some (.time _) => (w, .error .attributeError)
  | none => (w, .error .keyError)

theorem grower_considerate : ∀ f ∈ [grower], Considerate f := by
  intro f hf
  rw [List.mem_singleton.1 hf]
  intro state dt w
  unfold grower
  cases state.get? "T" with
  | none => exact ⟨Nat.le_refl _, fun _ _ => rfl, fun r hr => (by cases hr)⟩
  | some v =>
    cases v with
    | time t => exact ⟨Nat.le_refl _, fun _ _ => rfl, fun r hr => (by cases hr)⟩
    | ref l =>
      refine ⟨Nat.le_succ _, fun l hl => if_neg (by omega), fun r hr => ?_⟩
      cases hr
      exact fun kv hkv => (by cases hkv)

theorem grower_answers (dt : Int) : Answers reg [grower] dt selfGrowth := by
  intro m s _
  unfold selfGrowth
  rw [da_read]
  cases h : s.get? "T" with
  | none => simp only [callComposite, List.map, compositeLoopH, grower, h]; rfl
  | some v =>
    cases v with
    | time t => simp only [callComposite, List.map, compositeLoopH, grower, h]; rfl
    | ref l =>
      simp only [callComposite, List.map, compositeLoopH, grower, h]
      simp [Dict.mapVal, addIntoH, addEntryH, Mem.alloc, Mem.read, Dict.set, Exc.ok_bind]

end Demo

-- 10 K grow to 10 (1 + 1 + 1/2) K with two stages
example : (∀ f ∈ [Demo.grower], Considerate f) ∧ Answers Demo.reg [Demo.grower] 1000000 Demo.selfGrowth ∧
    ({ order := 1 } : ABH).Holds Demo.mem0 { order := 1 } ∧
    (show RState from [("T", .ref 1)]).Exists Demo.mem0 ∧
    Demo.lastT (readResult (ssprkH Demo.reg [Demo.grower] false { order := 1 } Demo.mem0 [("T", .ref 1)] 1000000).2.1
      (ssprkH Demo.reg [Demo.grower] false { order := 1 } Demo.mem0 [("T", .ref 1)] 1000000).2.2) = 25 := by
  refine ⟨Demo.grower_considerate, Demo.grower_answers _, ⟨rfl, rfl, fun t ht => (by cases ht), rfl⟩, ?_,
    by decide +kernel⟩
  intro q l h
  cases List.mem_singleton.1 h
  decide

end Verif

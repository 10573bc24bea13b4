import Verif.Lemmas.MonitoredRuns
/-!
# C108: runs with a NetCDFMonitor
-/

namespace Verif

/-- How a time stepper treats arrays.  Unless `first`, it may change the arrays of the
quantities `Q` of the state it is given, and returns new arrays for them. -/
structure Treads {τ σ : Type} (call : HStepper τ σ) (dt : Int) (Q : List String) (first : τ → Prop) : Prop where
  grow : ∀ (x : τ) (m : SMem σ) (s : RState), m.world.2 ≤ (call x m s dt).2.1.world.2
  keep : ∀ (x : τ) (m : SMem σ) (s : RState) l, s.Exists m → l < m.world.2 → (first x ∨ ∀ k ∈ Q, Dict.get? s k ≠ some (.ref l)) →
    (call x m s dt).2.1.ext l = m.ext l
  made : ∀ (x : τ) (m : SMem σ) (s : RState) d (new : RState), s.Exists m → (call x m s dt).2.2 = .ok (d, new) →
    new.Exists (call x m s dt).2.1 ∧ (∀ kv ∈ d, ∀ l, kv.2 = Ref.ext l → l < (call x m s dt).2.1.world.2) ∧
    ∀ k ∈ Q, ∃ l, Dict.get? new k = some (.ref l) ∧ m.world.2 ≤ l ∧ ∀ kv ∈ d, kv.2 ≠ Ref.ext l
  fail : ∀ (x : τ) (m : SMem σ) (s : RState) e, (call x m s dt).2.2 = .error e → first x → first (call x m s dt).1

/-! ## The time steppers -/

theorem ab_treads {σ : Type} {R : Registry} {cs : List (RComp σ)} (hcs : ∀ f ∈ cs, Considerate f) (dt : Int) :
    Treads (ABH.call R cs) dt [] fun _ => True := by
  have key : ∀ (x : ABH) (m : SMem σ) (s : RState), m.world.2 ≤ (ABH.call R cs x m s dt).2.1.world.2 ∧
      (∀ l, l < m.world.2 → (ABH.call R cs x m s dt).2.1.ext l = m.ext l) ∧
      ∀ d (new : RState), s.Exists m → (ABH.call R cs x m s dt).2.2 = .ok (d, new) →
        new.Exists (ABH.call R cs x m s dt).2.1 ∧
        ∀ kv ∈ d, ∀ l, kv.2 = Ref.ext l → l < (ABH.call R cs x m s dt).2.1.world.2 := by
    intro x m s
    obtain ⟨c1, c2, c3⟩ := callComposite_considerate (R := R) hcs m s dt
    obtain ⟨-, o2⟩ := callComposite_spec R cs m s dt
    unfold ABH.call
    by_cases hdt : x.timestep = none ∨ x.timestep = some dt
    · rw [if_pos hdt]
      rcases hz : callComposite R cs m s dt with ⟨m1, (err | ⟨t, d⟩)⟩
      · rw [hz] at c1 c2
        exact ⟨c1, c2, fun _ _ _ h => (by cases h)⟩
      · rw [hz] at c1 c2 c3 o2
        dsimp only at c1 c2 c3 o2 ⊢
        obtain ⟨_, d2, d3, _, _⟩ := convertH_spec R s t m1 (o2 _ rfl).1
        rcases hy : convertH R s t m1 with ⟨m2, (err | t')⟩
        · rw [hy] at d2 d3
          dsimp only at d2 d3 ⊢
          rw [d2, d3]
          exact ⟨c1, c2, fun _ _ _ h => (by cases h)⟩
        · rw [hy] at d2 d3
          dsimp only at d2 d3 ⊢
          rw [← d3] at c1
          split
          · dsimp only
            rw [d2]
            exact ⟨c1, c2, fun _ _ _ h => (by cases h)⟩
          · rename_i new _
            obtain ⟨-, -, a3, a4⟩ := allocState_spec new m2
            refine ⟨Nat.le_trans c1 a4, ?_, ?_⟩
            · intro l hl
              dsimp only
              rw [a3 l (Nat.lt_of_lt_of_le hl c1), d2, c2 l hl]
            · intro d' new' hs h
              cases h
              refine ⟨?_, ?_⟩
              · intro q l hq
                rcases copyUntouchedR_mem _ _ hq with hq | hq
                · exact Nat.lt_of_lt_of_le (hs q l hq) (Nat.le_trans c1 a4)
                · exact (allocState_refs _ _ hq).2
              · intro kv hkv l hl
                have := c3 _ rfl kv hkv l hl
                rw [← d3] at this
                exact Nat.lt_of_lt_of_le this a4
    · rw [if_neg hdt]
      exact ⟨Nat.le_refl _, fun _ _ => rfl, fun _ _ _ h => (by cases h)⟩
  refine ⟨fun x m s => (key x m s).1, fun x m s l _ hl _ => (key x m s).2.1 l hl, ?_, fun _ _ _ _ _ _ => trivial⟩
  intro x m s d new hs h
  obtain ⟨h1, h2⟩ := (key x m s).2.2 d new hs h
  exact ⟨h1, h2, fun k hk => (by cases hk)⟩

theorem RState.Exists.mono {σ : Type} {s : RState} {m m' : SMem σ} (h : s.Exists m) (hm : m.world.2 ≤ m'.world.2) :
    s.Exists m' := fun q l hq => Nat.lt_of_lt_of_le (h q l hq) hm

theorem allocState_exists {σ : Type} (s : State) (m : SMem σ) : (allocState s m).2.Exists (allocState s m).1 :=
  fun _ _ h => (allocState_refs s m h).2

theorem ssprk2_treads {σ : Type} {R : Registry} {cs : List (RComp σ)} (hcs : ∀ f ∈ cs, Considerate f) (dt : Int) :
    Treads (ssprk2H R cs) dt [] fun _ => True := by
  have T := ab_treads (R := R) hcs dt
  have key : ∀ (x : ABH) (m : SMem σ) (s : RState), m.world.2 ≤ (ssprk2H R cs x m s dt).2.1.world.2 ∧
      (s.Exists m → ∀ l, l < m.world.2 → (ssprk2H R cs x m s dt).2.1.ext l = m.ext l) ∧
      ∀ d (new : RState), s.Exists m → (ssprk2H R cs x m s dt).2.2 = .ok (d, new) →
        new.Exists (ssprk2H R cs x m s dt).2.1 ∧
        ∀ kv ∈ d, ∀ l, kv.2 = Ref.ext l → l < (ssprk2H R cs x m s dt).2.1.world.2 := by
    intro x m s
    have g1 := T.grow x m s
    have k1 := T.keep x m s
    have n1 := T.made x m s
    unfold ssprk2H
    rcases h1 : ABH.call R cs x m s dt with ⟨x1, m1, (e | ⟨d1, s1⟩)⟩
    · rw [h1] at g1 k1
      exact ⟨g1, fun hs l hl => k1 l hs hl (.inl trivial), fun _ _ _ h => (by cases h)⟩
    · rw [h1] at g1 k1 n1
      dsimp only at g1 k1 n1 ⊢
      have g2 := T.grow x1 m1 s1
      have k2 := T.keep x1 m1 s1
      have n2 := T.made x1 m1 s1
      rcases h2 : ABH.call R cs x1 m1 s1 dt with ⟨x2, m2, (e | ⟨d2, s2⟩)⟩
      · rw [h2] at g2 k2
        dsimp only at g2 k2 ⊢
        refine ⟨Nat.le_trans g1 g2, fun hs l hl => ?_, fun _ _ _ h => (by cases h)⟩
        rw [k2 l (n1 _ _ hs rfl).1 (Nat.lt_of_lt_of_le hl g1) (.inl trivial), k1 l hs hl (.inl trivial)]
      · rw [h2] at g2 k2
        dsimp only at g2 k2 ⊢
        have k12 : s.Exists m → ∀ l, l < m.world.2 → m2.ext l = m.ext l := fun hs l hl => by
          rw [k2 l (n1 _ _ hs rfl).1 (Nat.lt_of_lt_of_le hl g1) (.inl trivial), k1 l hs hl (.inl trivial)]
        split
        · exact ⟨Nat.le_trans g1 g2, k12, fun _ _ _ h => (by cases h)⟩
        · rename_i out _
          obtain ⟨-, -, a3, a4⟩ := allocState_spec out m2
          refine ⟨by dsimp only; omega, fun hs l hl => ?_, fun d new hs h => ?_⟩
          · dsimp only
            rw [a3 l (by omega), k12 hs l hl]
          · cases h
            refine ⟨allocState_exists _ _, fun kv hkv l hl => ?_⟩
            have := (n1 _ _ hs rfl).2.1 kv hkv l hl
            dsimp only
            omega
  refine ⟨fun x m s => (key x m s).1, fun x m s l hs hl _ => (key x m s).2.1 hs l hl, ?_, fun _ _ _ _ _ _ => trivial⟩
  intro x m s d new hs h
  obtain ⟨h1, h2⟩ := (key x m s).2.2 d new hs h
  exact ⟨h1, h2, fun k hk => (by cases hk)⟩

theorem ssprk3_treads {σ : Type} {R : Registry} {cs : List (RComp σ)} (hcs : ∀ f ∈ cs, Considerate f) (dt : Int) :
    Treads (ssprk3H R cs) dt [] fun _ => True := by
  have T := ab_treads (R := R) hcs dt
  have key : ∀ (x : ABH) (m : SMem σ) (s : RState), m.world.2 ≤ (ssprk3H R cs x m s dt).2.1.world.2 ∧
      (s.Exists m → ∀ l, l < m.world.2 → (ssprk3H R cs x m s dt).2.1.ext l = m.ext l) ∧
      ∀ d (new : RState), s.Exists m → (ssprk3H R cs x m s dt).2.2 = .ok (d, new) →
        new.Exists (ssprk3H R cs x m s dt).2.1 ∧
        ∀ kv ∈ d, ∀ l, kv.2 = Ref.ext l → l < (ssprk3H R cs x m s dt).2.1.world.2 := by
    intro x m s
    have g1 := T.grow x m s
    have k1 := T.keep x m s
    have n1 := T.made x m s
    unfold ssprk3H
    rcases h1 : ABH.call R cs x m s dt with ⟨x1, m1, (e | ⟨d1, s1⟩)⟩
    · rw [h1] at g1 k1
      exact ⟨g1, fun hs l hl => k1 l hs hl (.inl trivial), fun _ _ _ h => (by cases h)⟩
    · rw [h1] at g1 k1 n1
      dsimp only at g1 k1 n1 ⊢
      have g2 := T.grow x1 m1 s1
      have k2 := T.keep x1 m1 s1
      rcases h2 : ABH.call R cs x1 m1 s1 dt with ⟨x2, m2, (e | ⟨d2, s2⟩)⟩
      · rw [h2] at g2 k2
        dsimp only at g2 k2 ⊢
        refine ⟨Nat.le_trans g1 g2, fun hs l hl => ?_, fun _ _ _ h => (by cases h)⟩
        rw [k2 l (n1 _ _ hs rfl).1 (Nat.lt_of_lt_of_le hl g1) (.inl trivial), k1 l hs hl (.inl trivial)]
      · rw [h2] at g2 k2
        dsimp only at g2 k2 ⊢
        have k12 : s.Exists m → ∀ l, l < m.world.2 → m2.ext l = m.ext l := fun hs l hl => by
          rw [k2 l (n1 _ _ hs rfl).1 (Nat.lt_of_lt_of_le hl g1) (.inl trivial), k1 l hs hl (.inl trivial)]
        split
        · exact ⟨Nat.le_trans g1 g2, k12, fun _ _ _ h => (by cases h)⟩
        · rename_i mid _
          obtain ⟨-, -, a3, a4⟩ := allocState_spec mid m2
          have he := allocState_exists mid m2
          revert a3 a4 he
          rcases allocState mid m2 with ⟨m3, s3⟩
          intro a3 a4 he
          dsimp only at a3 a4 he ⊢
          have g4 := T.grow x2 m3 s3
          have k4 := T.keep x2 m3 s3
          have k14 : s.Exists m → ∀ l, l < m.world.2 → (ABH.call R cs x2 m3 s3 dt).2.1.ext l = m.ext l :=
            fun hs l hl => by
              rw [k4 l he (by omega) (.inl trivial), a3 l (by omega), k12 hs l hl]
          rcases h4 : ABH.call R cs x2 m3 s3 dt with ⟨x4, m4, (e | ⟨d4, s4⟩)⟩
          · rw [h4] at g4 k14
            dsimp only at g4 k14 ⊢
            exact ⟨by omega, k14, fun _ _ _ h => (by cases h)⟩
          · rw [h4] at g4 k14
            dsimp only at g4 k14 ⊢
            split
            · exact ⟨by dsimp only; omega, k14, fun _ _ _ h => (by cases h)⟩
            · rename_i out _
              obtain ⟨-, -, b3, b4⟩ := allocState_spec out m4
              refine ⟨by dsimp only; omega, fun hs l hl => ?_, fun d new hs h => ?_⟩
              · dsimp only
                rw [b3 l (by omega), k14 hs l hl]
              · cases h
                refine ⟨allocState_exists _ _, fun kv hkv l hl => ?_⟩
                have := (n1 _ _ hs rfl).2.1 kv hkv l hl
                dsimp only
                omega
  refine ⟨fun x m s => (key x m s).1, fun x m s l hs hl _ => (key x m s).2.1 hs l hl, ?_, fun _ _ _ _ _ _ => trivial⟩
  intro x m s d new hs h
  obtain ⟨h1, h2⟩ := (key x m s).2.2 d new hs h
  exact ⟨h1, h2, fun k hk => (by cases hk)⟩

/-- `Q` are the quantities that the components give tendencies of. -/
def TendsTo {σ : Type} (R : Registry) (cs : List (RComp σ)) (dt : Int) (Q : List String) : Prop :=
  ∀ m s r, (callComposite R cs m s dt).2 = .ok r → ∀ k, k ∈ r.1.keys ↔ k ∈ Q

theorem lf_treads {σ : Type} {R : Registry} {cs : List (RComp σ)} (hcs : ∀ f ∈ cs, Considerate f) {dt : Int}
    {Q : List String} (hQ : TendsTo R cs dt Q) : Treads (LFH.call R cs) dt Q fun lf => lf.old = none := by
  have key : ∀ (x : LFH) (m : SMem σ) (s : RState), m.world.2 ≤ (LFH.call R cs x m s dt).2.1.world.2 ∧
      (∀ l, l < m.world.2 → (x.old = none ∨ ∀ k ∈ Q, Dict.get? s k ≠ some (.ref l)) →
        (LFH.call R cs x m s dt).2.1.ext l = m.ext l) ∧
      (∀ d (new : RState), s.Exists m → (LFH.call R cs x m s dt).2.2 = .ok (d, new) →
        new.Exists (LFH.call R cs x m s dt).2.1 ∧
        (∀ kv ∈ d, ∀ l, kv.2 = Ref.ext l → l < (LFH.call R cs x m s dt).2.1.world.2) ∧
        ∀ k ∈ Q, ∃ l, Dict.get? new k = some (.ref l) ∧ m.world.2 ≤ l ∧ ∀ kv ∈ d, kv.2 ≠ Ref.ext l) ∧
      ∀ e, (LFH.call R cs x m s dt).2.2 = .error e → x.old = none → (LFH.call R cs x m s dt).1.old = none := by
    intro x m s
    obtain ⟨c1, c2, c3⟩ := callComposite_considerate (R := R) hcs m s dt
    obtain ⟨-, o2⟩ := callComposite_spec R cs m s dt
    have hq := hQ m s
    unfold LFH.call
    by_cases hdt : x.timestep = none ∨ x.timestep = some dt
    · rw [if_pos hdt]
      rcases hz : callComposite R cs m s dt with ⟨m1, (err | ⟨t, d⟩)⟩
      · rw [hz] at c1 c2
        exact ⟨c1, fun l hl _ => c2 l hl, fun _ _ _ h => (by cases h), fun _ _ h => h⟩
      · rw [hz] at c1 c2 c3 o2 hq
        dsimp only at c1 c2 c3 o2 hq ⊢
        obtain ⟨_, d2, d3, _, d5⟩ := convertH_spec R s t m1 (o2 _ rfl).1
        rcases hy : convertH R s t m1 with ⟨m2, (err | t')⟩
        · rw [hy] at d2 d3
          dsimp only at d2 d3 ⊢
          rw [d2, d3]
          exact ⟨c1, fun l hl _ => c2 l hl, fun _ _ _ h => (by cases h), fun _ _ h => h⟩
        · rw [hy] at d2 d3 d5
          dsimp only at d2 d3 d5 ⊢
          have hkeys : t'.keys = t.keys := by
            have := (convertTendencies_ok (d5 t' rfl).2).1
            rw [Dict.keys_mapVal, Dict.keys_mapVal] at this
            exact this
          have hq' : ∀ k, k ∈ t'.keys ↔ k ∈ Q := by rw [hkeys]; exact hq _ rfl
          have c3' := c3 _ rfl
          rw [← d3] at c1
          rw [← d3] at c3'
          rw [← d2] at c2
          cases ho : x.old with
          | none =>
            dsimp only
            split
            · exact ⟨c1, fun l hl _ => c2 l hl, fun _ _ _ h => (by cases h), fun _ _ _ => rfl⟩
            · rename_i new hnew
              obtain ⟨-, -, a3, a4⟩ := allocState_spec new m2
              refine ⟨Nat.le_trans c1 a4, ?_, ?_, fun _ h => (by cases h)⟩
              · intro l hl _
                dsimp only
                rw [a3 l (Nat.lt_of_lt_of_le hl c1), c2 l hl]
              · intro d' new' hs h
                cases h
                refine ⟨?_, ?_, ?_⟩
                · intro q l hq
                  rcases copyUntouchedR_mem _ _ hq with hq | hq
                  · exact Nat.lt_of_lt_of_le (hs q l hq) (Nat.le_trans c1 a4)
                  · exact (allocState_refs _ _ hq).2
                · exact fun kv hkv l hl => Nat.lt_of_lt_of_le (c3' kv hkv l hl) a4
                · intro k hk
                  obtain ⟨hk1, hk2⟩ := stepKeys_ok hnew
                  obtain ⟨v, -, hv⟩ := hk2 k (by rw [Dict.keys_mapVal]; exact (hq' k).2 hk)
                  obtain ⟨l, hl⟩ := allocState_get new m2 hv
                  have hge := (allocState_refs new m2 (Dict.mem_of_get? hl)).1
                  refine ⟨l, ?_, Nat.le_trans c1 hge, ?_⟩
                  · rw [copyUntouchedR_get _ _ (Dict.mem_keys_of_get? hl)]
                    exact hl
                  · intro kv hkv he
                    exact absurd (c3' kv hkv l he) (Nat.not_lt.2 hge)
          | some old =>
            dsimp only
            have hfr := fun l hl hk => stepLeapfrogH_frame x.strength x.alpha old s t' dt t'.keys m2 [] l hl hk
            obtain ⟨p1, p2⟩ := stepLeapfrogH_made x.strength x.alpha old s t' dt t'.keys m2 []
            rcases hx : stepLeapfrogH x.strength x.alpha old s t' dt t'.keys m2 [] with ⟨m3, (err | new)⟩
            · rw [hx] at p1 hfr
              dsimp only at p1 hfr ⊢
              refine ⟨Nat.le_trans c1 p1, ?_, fun _ _ _ h => (by cases h), fun _ _ h => (by cases h)⟩
              rintro l hl (h | h)
              · cases h
              · rw [hfr l (Nat.lt_of_lt_of_le hl c1) (fun k hk => h k ((hq' k).1 hk)), c2 l hl]
            · rw [hx] at p1 p2 hfr
              dsimp only at p1 p2 hfr ⊢
              obtain ⟨r1, r2, r3⟩ := p2 new rfl
              refine ⟨Nat.le_trans c1 p1, ?_, ?_, fun _ h => (by cases h)⟩
              · rintro l hl (h | h)
                · cases h
                · rw [hfr l (Nat.lt_of_lt_of_le hl c1) (fun k hk => h k ((hq' k).1 hk)), c2 l hl]
              · intro d' new' hs h
                cases h
                refine ⟨?_, ?_, ?_⟩
                · intro q l hq
                  rcases copyUntouchedR_mem _ _ hq with hq | hq
                  · exact Nat.lt_of_lt_of_le (hs q l hq) (Nat.le_trans c1 p1)
                  · rcases r1 q l hq with h | h
                    · cases h
                    · exact h.2
                · exact fun kv hkv l hl => Nat.lt_of_lt_of_le (c3' kv hkv l hl) p1
                · intro k hk
                  obtain ⟨l, h1, hge⟩ := r3 k ((hq' k).2 hk)
                  refine ⟨l, ?_, Nat.le_trans c1 hge, ?_⟩
                  · rw [copyUntouchedR_get _ _ (Dict.mem_keys_of_get? h1)]
                    exact h1
                  · intro kv hkv he
                    exact absurd (c3' kv hkv l he) (Nat.not_lt.2 hge)
    · rw [if_neg hdt]
      exact ⟨Nat.le_refl _, fun _ _ _ => rfl, fun _ _ _ h => (by cases h), fun _ _ h => h⟩
  exact ⟨fun x m s => (key x m s).1, fun x m s l _ hl h => (key x m s).2.1 l hl h,
    fun x m s d new hs h => (key x m s).2.2.1 d new hs h, fun x m s e h => (key x m s).2.2.2 e h⟩

/-! ## Programs -/

/-- No array of `Q` in the state about to be stepped waits to be written or belongs to
the last state. -/
def Drive.Clear {τ σ : Type} (d : Drive τ σ) (mon : HNCMon) (Q : List String) : Prop :=
  ∀ k ∈ Q, ∀ l, Dict.get? d.state k = some (.ref l) →
    ¬ mon.Waiting l ∧ ∀ s, d.last = some s → ∀ q, (q, RVal.ref l) ∉ s

theorem mem_diagEntries {diag : Dict Ref} {q : String} {l : Nat} (h : (q, RVal.ref l) ∈ diagEntries diag) :
    (q, Ref.ext l) ∈ diag := by
  obtain ⟨⟨k, r⟩, hkr, he⟩ := List.mem_filterMap.1 h
  cases r with
  | own j => cases he
  | ext j => cases he; exact hkr

theorem run_by_value {τ σ : Type} {order : SetOrder} {call : HStepper τ σ} {dt : Int} {Q : List String}
    {first : τ → Prop} (T : Treads call dt Q first) (ops : List MOp) (d : Drive τ σ) (mon : HNCMon)
    (hd : d.Sound mon) (hc : first d.stepper ∨ d.Clear mon Q)
    (hops : Q = [] ∨ (first d.stepper ∧ StoredAfterwards ops) ∨ MOp.storeState ∉ ops) :
    let r := runMonitored order call dt ops (d, mon)
    runByValue order call dt ops (d, mon.read d.mem.ext) = ((r.1.1, r.1.2.read r.1.1.mem.ext), r.2) := by
  induction ops generalizing d mon with
  | nil => rfl
  | cons op ops ih =>
    have hops' : Q = [] ∨ (first d.stepper ∧ StoredAfterwards ops ∧ (op = .step → MOp.storeState ∉ ops)) ∨
        MOp.storeState ∉ ops := by
      rcases hops with h | ⟨h1, h2⟩ | h
      · exact .inl h
      · refine .inr (.inl ⟨h1, ?_, ?_⟩)
        · intro pre post he hp
          exact h2 (op :: pre) post (by rw [he]; rfl) (List.mem_cons_of_mem _ hp)
        · rintro rfl hm
          obtain ⟨pre, post, he⟩ := List.append_of_mem hm
          exact h2 (.step :: pre) post (by rw [he]; rfl) List.mem_cons_self
      · exact .inr (.inr fun hm => h (List.mem_cons_of_mem _ hm))
    -- storing a state `s` whose arrays exist
    have hstore : ∀ s : RState, s.Exists d.mem →
        (first d.stepper ∨ ∀ k ∈ Q, ∀ l, Dict.get? d.state k = some (.ref l) → ∀ q, (q, RVal.ref l) ∉ s) →
        ncStore order (mon.read d.mem.ext) (s.read d.mem.ext) =
          ((ncStoreH order d.mem.ext mon s.held).1.read d.mem.ext, (ncStoreH order d.mem.ext mon s.held).2) ∧
        d.Sound (ncStoreH order d.mem.ext mon s.held).1 ∧
        (first d.stepper ∨ d.Clear (ncStoreH order d.mem.ext mon s.held).1 Q) := by
      intro s hs hcl
      refine ⟨?_, ⟨hd.state, hd.last, ?_⟩, ?_⟩
      · rw [← read_held]
        exact ncStore_read order d.mem.ext mon s.held
      · intro l hl
        rcases ncStoreH_waiting hl with h | ⟨q, h⟩
        · exact hd.waiting l h
        · exact hs q l (mem_held.1 h)
      · rcases hc with hc | hc
        · exact .inl hc
        · rcases hcl with hcl | hcl
          · exact .inl hcl
          · refine .inr fun k hk l hl => ⟨fun hw => ?_, (hc k hk l hl).2⟩
            rcases ncStoreH_waiting hw with h | ⟨q, h⟩
            · exact (hc k hk l hl).1 h
            · exact hcl k hk l hl q (mem_held.1 h)
    have hrest : Q = [] ∨ (first d.stepper ∧ StoredAfterwards ops) ∨ MOp.storeState ∉ ops := by
      rcases hops' with h | ⟨h1, h2, -⟩ | h
      · exact .inl h
      · exact .inr (.inl ⟨h1, h2⟩)
      · exact .inr (.inr h)
    dsimp only
    unfold runByValue runMonitored
    cases op with
    | storeState =>
      obtain ⟨s1, s2, s3⟩ := hstore d.state hd.state (by
        rcases hops with h | ⟨h, -⟩ | h
        · refine .inr fun k hk => ?_
          rw [h] at hk
          cases hk
        · exact .inl h
        · exact absurd List.mem_cons_self h)
      have i := ih d (ncStoreH order d.mem.ext mon d.state.held).1 s2 s3 hrest
      dsimp only [MOp.run, MOp.runValues] at i ⊢
      rw [s1]
      dsimp only
      rw [i]
    | storeLast =>
      dsimp only [MOp.run, MOp.runValues]
      cases hl : d.last with
      | none =>
        have i := ih d mon hd hc hrest
        dsimp only at i ⊢
        rw [i]
      | some s =>
        obtain ⟨s1, s2, s3⟩ := hstore s (hd.last s hl) (by
          rcases hc with h | h
          · exact .inl h
          · exact .inr fun k hk l hg => (h k hk l hg).2 s hl)
        have i := ih d (ncStoreH order d.mem.ext mon s.held).1 s2 s3 hrest
        dsimp only at i ⊢
        rw [s1]
        dsimp only
        rw [i]
    | write =>
      have s1 := ncWrite_read d.mem.ext mon
      have i := ih d (ncWriteH d.mem.ext mon).1
        ⟨hd.state, hd.last, fun l hl => hd.waiting l (ncWriteH_waiting hl)⟩
        (hc.imp_right fun h k hk l hg => ⟨fun hw => (h k hk l hg).1 (ncWriteH_waiting hw), (h k hk l hg).2⟩) hrest
      dsimp only [MOp.run, MOp.runValues] at i ⊢
      rw [s1]
      dsimp only
      rw [i]
    | step =>
      have hno : Q = [] ∨ MOp.storeState ∉ ops := by
        rcases hops' with h | ⟨-, -, h⟩ | h
        · exact .inl h
        · exact .inr (h rfl)
        · exact .inr h
      have hrest' : ∀ x : τ, Q = [] ∨ (first x ∧ StoredAfterwards ops) ∨ MOp.storeState ∉ ops := fun x =>
        hno.imp_right .inr
      have hread : ∀ m' : SMem σ, m' = (call d.stepper d.mem d.state dt).2.1 →
          mon.read m'.ext = mon.read d.mem.ext := by
        rintro m' rfl
        refine read_undisturbed fun l hl => T.keep _ _ _ l hd.state (hd.waiting l hl) ?_
        exact hc.imp_right fun h k hk hg => (h k hk l hg).1 hl
      have hg := T.grow d.stepper d.mem d.state
      have hm := T.made d.stepper d.mem d.state
      have hf := T.fail d.stepper d.mem d.state
      dsimp only [MOp.run, MOp.runValues, Drive.advance]
      cases ht : d.state.time with
      | error e =>
        have i := ih d mon hd hc hrest
        dsimp only at i ⊢
        rw [i]
      | ok t =>
        dsimp only
        rcases hz : call d.stepper d.mem d.state dt with ⟨x, m, (e | ⟨diag, new⟩)⟩
        · rw [hz] at hread hg hf
          dsimp only at hread hg hf ⊢
          have i := ih { d with stepper := x, mem := m } mon
            ⟨hd.state.mono hg, fun s hs => (hd.last s hs).mono hg,
              fun l hl => Nat.lt_of_lt_of_le (hd.waiting l hl) hg⟩
            (hc.imp (hf e rfl) fun h => h) (hrest' x)
          dsimp only at i ⊢
          rw [hread m rfl] at i
          rw [i]
        · rw [hz] at hread hg hm
          dsimp only at hread hg hm ⊢
          obtain ⟨n1, n2, n3⟩ := hm diag new hd.state rfl
          have i := ih { stepper := x, mem := m, last := some (Dict.update d.state (diagEntries diag))
                         state := Dict.set new "time" (.time (t + dt)) } mon
            ⟨fun q l hq => by
                rcases Dict.mem_set hq with hq | hq
                · exact n1 q l hq
                · exact (by cases hq),
              fun s hs q l hq => by
                cases hs
                rcases Dict.mem_update hq with hq | hq
                · exact Nat.lt_of_lt_of_le (hd.state q l hq) hg
                · exact n2 _ (mem_diagEntries hq) l rfl,
              fun l hl => Nat.lt_of_lt_of_le (hd.waiting l hl) hg⟩
            (.inr fun k hk l hl => by
              dsimp only at hl ⊢
              by_cases hkt : k = "time"
              · rw [hkt, Dict.get?_set_self] at hl
                cases hl
              · rw [Dict.get?_set_ne _ _ (Ne.symm hkt)] at hl
                obtain ⟨j, j1, j2, j3⟩ := n3 k hk
                rw [j1] at hl
                cases hl
                refine ⟨fun hw => absurd (hd.waiting _ hw) (Nat.not_lt.2 j2), fun s hs q hq => ?_⟩
                cases hs
                rcases Dict.mem_update hq with hq | hq
                · exact absurd (hd.state q _ hq) (Nat.not_lt.2 j2)
                · exact j3 _ (mem_diagEntries hq) rfl) (hrest' x)
          dsimp only at i ⊢
          rw [hread m rfl] at i
          rw [i]

/-- The file and the outcomes of a program are those it would have if `store` copied. -/
def FileAsStored {τ σ : Type} (order : SetOrder) (call : HStepper τ σ) (dt : Int) (ops : List MOp) (d : Drive τ σ)
    (mon : HNCMon) : Prop :=
  (runMonitored order call dt ops (d, mon)).1.2.file =
    (runByValue order call dt ops (d, mon.read d.mem.ext)).1.2.file ∧
  (runMonitored order call dt ops (d, mon)).2 = (runByValue order call dt ops (d, mon.read d.mem.ext)).2

theorem file_as_stored {τ σ : Type} {order : SetOrder} {call : HStepper τ σ} {dt : Int} {Q : List String}
    {first : τ → Prop} (T : Treads call dt Q first) (ops : List MOp) (d : Drive τ σ) (mon : HNCMon)
    (hd : d.Sound mon) (hc : first d.stepper ∨ d.Clear mon Q)
    (hops : Q = [] ∨ (first d.stepper ∧ StoredAfterwards ops) ∨ MOp.storeState ∉ ops) :
    FileAsStored order call dt ops d mon := by
  have h := run_by_value (order := order) T ops d mon hd hc hops
  dsimp only at h
  unfold FileAsStored
  rw [h]
  exact ⟨rfl, rfl⟩

/-- **C108, AdamsBashforth.**  Any program that steps, stores states before or after
they are stepped, and writes the file at any times: the file has what it would have if
every `store` had copied the arrays. -/
theorem ab_file_as_stored {σ : Type} (R : Registry) (order : SetOrder) (cs : List (RComp σ))
    (hcs : ∀ f ∈ cs, Considerate f) (dt : Int) (ops : List MOp) (d : Drive ABH σ) (mon : HNCMon) (hd : d.Sound mon) :
    FileAsStored order (ABH.call R cs) dt ops d mon :=
  file_as_stored (ab_treads hcs dt) ops d mon hd (.inl trivial) (.inl rfl)

/-- **C108, SSPRungeKutta.** -/
theorem ssprk_file_as_stored {σ : Type} (R : Registry) (order : SetOrder) (cs : List (RComp σ))
    (hcs : ∀ f ∈ cs, Considerate f) (three : Bool) (dt : Int) (ops : List MOp) (d : Drive ABH σ) (mon : HNCMon)
    (hd : d.Sound mon) : FileAsStored order (ssprkH R cs three) dt ops d mon := by
  cases three with
  | true => exact file_as_stored (ssprk3_treads hcs dt) ops d mon hd (.inl trivial) (.inl rfl)
  | false => exact file_as_stored (ssprk2_treads hcs dt) ops d mon hd (.inl trivial) (.inl rfl)

/-- **C108, Leapfrog.**  From its first step on, the same for programs that store states
only after they have been stepped, as the documented main loop does. -/
theorem leapfrog_file_as_stored_partial {σ : Type} (R : Registry) (order : SetOrder) (cs : List (RComp σ))
    (hcs : ∀ f ∈ cs, Considerate f) (dt : Int) (Q : List String) (hQ : TendsTo R cs dt Q) (ops : List MOp)
    (d : Drive LFH σ) (mon : HNCMon) (hd : d.Sound mon) (hfirst : d.stepper.old = none) (hops : StoredAfterwards ops) :
    FileAsStored order (LFH.call R cs) dt ops d mon :=
  file_as_stored (lf_treads hcs hQ) ops d mon hd (.inl hfirst) (.inr (.inl ⟨hfirst, hops⟩))

/-! ## Examples and counterexample -/

namespace Demo

/-- Heats by array 0 when first called, then by array 2; makes a new array for a
diagnostic. -/
def starter : RComp Nat := fun _ _ w =>
  (((w.1.1 + 1, w.1.2 + 1), fun l => if l = w.1.2 then ⟨["x"], ⟨[1], fun _ => w.1.1⟩, [("units", "K")]⟩ else w.2 l),
    .ok ([("T", if w.1.1 = 0 then 0 else 2)], [("calls", w.1.2)]))

/-- Array 0 is 1 K/s, array 1 is 10 K, array 2 is 0 K/s, all on `x`. -/
def strips : Ext := fun l =>
  if l = 0 then ⟨["x"], ⟨[1], fun _ => 1⟩, [("units", "K s^-1")]⟩
  else if l = 1 then ⟨["x"], ⟨[1], fun _ => 10⟩, [("units", "K")]⟩
  else ⟨["x"], ⟨[1], fun _ => 0⟩, [("units", "K s^-1")]⟩

def strip0 {τ : Type} (x : τ) : Drive τ Nat := ⟨x, ⟨(0, 3), strips, []⟩, none, [("T", .ref 1), ("time", .time 0)]⟩

theorem starter_considerate : ∀ f ∈ [starter], Considerate f := by
  intro f hf
  rw [List.mem_singleton.1 hf]
  intro state dt w
  refine ⟨Nat.le_succ _, fun l hl => if_neg (by omega), fun r hr => ?_⟩
  cases hr
  intro kv hkv
  rw [List.mem_singleton.1 hkv]
  exact Nat.lt_succ_self _

theorem starter_tends (dt : Int) : TendsTo reg [starter] dt ["T"] := by
  intro m s r hr k
  have h : (callComposite reg [starter] m s dt).2 =
      .ok ([("T", .own m.own.length)], [("calls", .ext m.world.2)]) := rfl
  rw [h] at hr
  cases hr
  exact Iff.rfl

theorem strip0_sound {τ : Type} (x : τ) (b : Bool) : (strip0 x).Sound { hMon with writeOnStore := b } := by
  refine ⟨?_, fun s h => (by cases h), ?_⟩
  · intro q l h
    have h' : l = 1 := by
      rcases List.mem_cons.1 h with h | h
      · cases h; rfl
      · cases List.mem_singleton.1 h
    rw [h']
    exact (by decide : 1 < 3)
  · rintro l ⟨ts, h, -⟩
    cases h

/-- The documented main loop, twice; the file is written at the end. -/
def mainLoop : List MOp := [.step, .storeLast, .step, .storeLast, .write]

/-- The state is stored before it is stepped. -/
def storeFirst : List MOp := [.storeState, .step, .storeState, .step, .write]

end Demo

open Demo in
example : StoredAfterwards mainLoop := by
  intro pre post h
  have : MOp.storeState ∈ mainLoop := by rw [h]; simp
  exact absurd this (by decide)

-- the file has the initial 10 K and then what the filter made of the 11 K after the first step
open Demo in
example : firstOf (runMonitored Demo.order (LFH.call reg [starter]) 1000000 mainLoop
      (strip0 { strength := 1 }, hMon)).1.2.file 0 = some 10 ∧
    firstOf (runMonitored Demo.order (LFH.call reg [starter]) 1000000 mainLoop
      (strip0 { strength := 1 }, hMon)).1.2.file 1 = some (21 / 2) := by
  constructor <;> decide +kernel

-- with AdamsBashforth, 10 K and 11 K, also if stored first
open Demo in
example : firstOf (runMonitored Demo.order (ABH.call reg [starter]) 1000000 mainLoop
      (strip0 { order := 1 }, hMon)).1.2.file 1 = some 11 ∧
    firstOf (runMonitored Demo.order (ABH.call reg [starter]) 1000000 storeFirst
      (strip0 { order := 1 }, hMon)).1.2.file 1 = some 11 := by
  constructor <;> decide +kernel

open Demo in
/-- **C108 fails for Leapfrog if a state is stored before it is stepped.**  The state
after the first step has 11 K when it is stored.  Its step changes the array to
10.5 K, and the file has 10.5 K if written afterwards, but 11 K if written on store. -/
theorem leapfrog_changes_stored :
    (∀ b, (strip0 ({ strength := 1 } : LFH)).Sound { hMon with writeOnStore := b }) ∧
    (∀ f ∈ [starter], Considerate f) ∧ TendsTo reg [starter] 1000000 ["T"] ∧
    firstOf (runMonitored Demo.order (LFH.call reg [starter]) 1000000 storeFirst
      (strip0 { strength := 1 }, hMon)).1.2.file 1 = some (21 / 2) ∧
    firstOf (runByValue Demo.order (LFH.call reg [starter]) 1000000 storeFirst
      (strip0 { strength := 1 }, hMon.read strips)).1.2.file 1 = some 11 ∧
    firstOf (runMonitored Demo.order (LFH.call reg [starter]) 1000000 storeFirst
      (strip0 { strength := 1 }, { hMon with writeOnStore := true })).1.2.file 1 = some 11 :=
  ⟨strip0_sound _, starter_considerate, starter_tends _, by decide +kernel, by decide +kernel, by decide +kernel⟩

end Verif

import Verif.Props.Scaling
/-!
# C43: repeated calls of a ScalingWrapper
-/

namespace Verif

section
variable {σ : Type}

/-- No array that existed in `m` is changed in `m'`. -/
def Keeps (m m' : WMem σ) : Prop :=
  m.arrays.length ≤ m'.arrays.length ∧ ∀ l < m.arrays.length, m'.at' l = m.at' l

theorem Keeps.refl (m : WMem σ) : Keeps m m := ⟨Nat.le_refl _, fun _ _ => rfl⟩

theorem Keeps.trans {m m' m'' : WMem σ} (h : Keeps m m') (h' : Keeps m' m'') : Keeps m m'' :=
  ⟨Nat.le_trans h.1 h'.1, fun l hl => (h'.2 l (Nat.lt_of_lt_of_le hl h.1)).trans (h.2 l hl)⟩

theorem WMem.Extends.keeps {m m' : WMem σ} (h : m.Extends m') : Keeps m m' := ⟨h.length, fun _ hl => h.at hl⟩

theorem Keeps.valid {m m' : WMem σ} (h : Keeps m m') {d : RState} (hd : Valid m d) : Valid m' d :=
  fun kv hkv l hl => Nat.lt_of_lt_of_le (hd kv hkv l hl) h.1

theorem Keeps.vals {m m' : WMem σ} (h : Keeps m m') {d : RState} (hd : Valid m d) : m'.vals d = m.vals d := by
  apply mapVal_congr
  intro kv hkv
  cases hv : kv.2 with
  | time t => rfl
  | ref l => simp only [WMem.val, h.2 l (hd kv hkv l hv)]

/-- The component returns the same result each time: what it does depends only on the
values in the state and on the timestep, it returns new and distinct arrays, and it
leaves existing arrays alone.  `F` is the function it computes. -/
def ReturnsSame (comp : WComp σ) (F : State → Option Int → Except Err (State × State)) : Prop :=
  ∀ m s dt, Valid m s → Keeps m (comp m s dt).1 ∧
    (∀ e, (comp m s dt).2 = .error e → F (m.vals s) dt = .error e) ∧
    ∀ r, (comp m s dt).2 = .ok r →
      F (m.vals s) dt = .ok ((comp m s dt).1.vals r.1, (comp m s dt).1.vals r.2) ∧
      Unshared (r.1 ++ r.2) ∧ Valid (comp m s dt).1 (r.1 ++ r.2) ∧
      (Dict.keys r.1).Nodup ∧ (Dict.keys r.2).Nodup ∧
      ∀ kv ∈ r.1 ++ r.2, ∀ l, kv.2 = .ref l → m.arrays.length ≤ l

/-- Two value-level loops. -/
def scaleBothV (f1 f2 : Dict Rat) (d1 d2 : State) : Except Err (State × State) :=
  scaleOutputsV f1 d1 >>= fun a => scaleOutputsV f2 d2 >>= fun b => .ok (a, b)

theorem scaleBoth_refines (f1 f2 : Dict Rat) {d1 d2 : RState} (m : WMem σ) (out : RState × RState)
    (hu1 : Unshared d1) (hu2 : Unshared d2) (hd : Disjoint' d1 d2) (hv1 : Valid m d1) (hv2 : Valid m d2)
    (hn1 : (Dict.keys d1).Nodup) (hn2 : (Dict.keys d2).Nodup) :
    (scaleBoth f1 f2 d1 d2 m out).1.arrays.length = m.arrays.length ∧
    (∀ d, Disjoint' d1 d → Disjoint' d2 d → (scaleBoth f1 f2 d1 d2 m out).1.vals d = m.vals d) ∧
    (∀ e, (scaleBoth f1 f2 d1 d2 m out).2 = .error e → scaleBothV f1 f2 (m.vals d1) (m.vals d2) = .error e) ∧
    ∀ r, (scaleBoth f1 f2 d1 d2 m out).2 = .ok r → r = out ∧ scaleBothV f1 f2 (m.vals d1) (m.vals d2) =
      .ok ((scaleBoth f1 f2 d1 d2 m out).1.vals d1, (scaleBoth f1 f2 d1 d2 m out).1.vals d2) := by
  obtain ⟨-, a2, a3, a4, a5⟩ := scaleOutputs_refines f1 m hu1 hv1 hn1
  unfold scaleBoth scaleBothV
  rcases x1 : scaleOutputs f1 m d1 with ⟨m1, r1⟩
  rw [x1] at a2 a3 a4 a5
  dsimp only at a2 a3 a4 a5
  cases r1 with
  | error e =>
    refine ⟨a2, fun d h _ => a3 d h, fun e' h => ?_, fun r h => (by cases h)⟩
    injection h with h
    subst h
    rw [a4 e rfl]
    rfl
  | ok u =>
    have hv2' : Valid m1 d2 := fun kv hkv l hl => by rw [a2]; exact hv2 kv hkv l hl
    obtain ⟨-, b2, b3, b4, b5⟩ := scaleOutputs_refines f2 m1 hu2 hv2' hn2
    rw [a3 d2 hd] at b4 b5
    rw [a5 rfl]
    dsimp only
    rcases x2 : scaleOutputs f2 m1 d2 with ⟨m2, r2⟩
    rw [x2] at b2 b3 b4 b5
    dsimp only at b2 b3 b4 b5
    cases r2 with
    | error e =>
      refine ⟨b2.trans a2, fun d h h' => (b3 d h').trans (a3 d h), fun e' h => ?_, fun r h => (by cases h)⟩
      injection h with h
      subst h
      rw [Exc.ok_bind, b4 e rfl]
      rfl
    | ok u =>
      refine ⟨b2.trans a2, fun d h h' => (b3 d h').trans (a3 d h), fun e h => (by cases h), fun r h => ?_⟩
      injection h with h
      refine ⟨h.symm, ?_⟩
      rw [Exc.ok_bind, b5 rfl, b3 d1 (disjoint_symm hd)]
      rfl

/-- The call, on values. -/
def Scaling.callV (w : Scaling) (o : Obj) (inKeys : List String)
    (F : State → Option Int → Except Err (State × State)) (S : State) (dt : Option Int) :
    Except Err (State × State) :=
  scaleInputsV w.input S inKeys (match Dict.get? S "time" with | some v => [("time", v)] | none => []) >>= fun s1 =>
  match scalingKind o with
  | none => .error .runtimeError
  | some k =>
    if takesTimestep k ∧ dt = none then .error .typeError
    else F s1 (if takesTimestep k then dt else none) >>= fun V =>
      if k = .stepper then scaleBothV w.output w.diagnostic V.2 V.1 >>= fun p => .ok (p.2, p.1)
      else if k = .diagnostic then scaleBothV [] w.diagnostic [] V.1 >>= fun p => .ok (p.2, V.2)
      else scaleBothV w.tendency w.diagnostic V.1 V.2

theorem vals_timeOf (m : WMem σ) (state : RState) : m.vals (timeOf state) =
    (match Dict.get? (m.vals state) "time" with | some v => [("time", v)] | none => []) := by
  rw [vals_get?]
  unfold timeOf
  cases Dict.get? state "time" <;> rfl

/-- What one call does. -/
theorem scaling_call_refines (w : Scaling) (o : Obj) (inKeys : List String) {comp : WComp σ}
    {F : State → Option Int → Except Err (State × State)} (hF : ReturnsSame comp F) (m : WMem σ)
    (state : RState) (hs : Valid m state) (dt : Option Int) :
    Keeps m (w.call o inKeys comp m state dt).1 ∧
    (∀ e, (w.call o inKeys comp m state dt).2 = .error e → w.callV o inKeys F (m.vals state) dt = .error e) ∧
    ∀ r, (w.call o inKeys comp m state dt).2 = .ok r →
      Valid (w.call o inKeys comp m state dt).1 (r.1 ++ r.2) ∧
      w.callV o inKeys F (m.vals state) dt =
        .ok ((w.call o inKeys comp m state dt).1.vals r.1, (w.call o inKeys comp m state dt).1.vals r.2) := by
  have htv : Valid m (timeOf state) := by
    unfold timeOf
    intro kv hkv l hl
    cases ht : Dict.get? state "time" with
    | none => rw [ht] at hkv; cases hkv
    | some v =>
      rw [ht] at hkv
      simp only [List.mem_singleton] at hkv
      subst hkv
      dsimp only at hl
      subst hl
      exact hs.get ht
  obtain ⟨i1, -, i3, i4⟩ := scaleInputs_refines w.input state inKeys m (timeOf state) hs htv
  rw [vals_timeOf] at i3 i4
  unfold Scaling.callV
  rcases hi : scaleInputs w.input state inKeys m (timeOf state) with ⟨m1, r1⟩
  rw [hi] at i1 i3 i4
  dsimp only at i1 i3 i4
  cases r1 with
  | error e =>
    unfold Scaling.call
    rw [hi]
    refine ⟨i1.keeps, fun e' h => ?_, fun r h => (by cases h)⟩
    injection h with h
    subst h
    rw [i3 e rfl]
    rfl
  | ok s1 =>
    obtain ⟨i5, i6⟩ := i4 s1 rfl
    rw [i6, Exc.ok_bind]
    cases hk : scalingKind o with
    | none =>
      unfold scalingKind at hk
      simp only [List.find?_eq_none, List.mem_cons, List.not_mem_nil, or_false, forall_eq_or_imp,
        forall_eq, Bool.not_eq_true] at hk
      unfold Scaling.call
      rw [hi]
      simp only [hk.1, hk.2.1, hk.2.2.1, hk.2.2.2, Bool.false_eq_true, if_false]
      refine ⟨i1.keeps, fun e' h => ?_, fun r h => (by cases h)⟩
      injection h with h
      subst h
      rfl
    | some k =>
      rw [scaling_call_eq w o inKeys comp m state dt hi hk]
      dsimp only
      by_cases hdt : takesTimestep k ∧ dt = none
      · rw [if_pos hdt, if_pos hdt]
        refine ⟨i1.keeps, fun e' h => ?_, fun r h => (by cases h)⟩
        injection h with h
        subst h
        rfl
      · rw [if_neg hdt, if_neg hdt]
        obtain ⟨c1, c2, c3⟩ := hF m1 s1 (if takesTimestep k then dt else none) i5
        rcases hc : comp m1 s1 (if takesTimestep k then dt else none) with ⟨m2, r2⟩
        rw [hc] at c1 c2 c3
        dsimp only at c1 c2 c3
        cases r2 with
        | error e =>
          refine ⟨i1.keeps.trans c1, fun e' h => ?_, fun r h => (by cases h)⟩
          injection h with h
          subst h
          rw [c2 e rfl]
          rfl
        | ok r =>
          obtain ⟨c4, hu, hv, hn1, hn2, hfresh⟩ := c3 r rfl
          rw [c4, Exc.ok_bind]
          obtain ⟨u1, u2, u3⟩ := unshared_append hu
          have hv1 : Valid m2 r.1 := fun kv hkv => hv kv (List.mem_append_left _ hkv)
          have hv2 : Valid m2 r.2 := fun kv hkv => hv kv (List.mem_append_right _ hkv)
          have hf1 : ∀ kv ∈ r.1, ∀ l, kv.2 = RVal.ref l → m1.arrays.length ≤ l :=
            fun kv hkv => hfresh kv (List.mem_append_left _ hkv)
          have hf2 : ∀ kv ∈ r.2, ∀ l, kv.2 = RVal.ref l → m1.arrays.length ≤ l :=
            fun kv hkv => hfresh kv (List.mem_append_right _ hkv)
          have hm : Keeps m m1 := i1.keeps
          -- the loops after the call touch only the arrays the component returned
          have main : ∀ (f1 f2 : Dict Rat) (d1 d2 : RState), Unshared d1 → Unshared d2 → Disjoint' d1 d2 →
              Valid m2 d1 → Valid m2 d2 → (Dict.keys d1).Nodup → (Dict.keys d2).Nodup →
              (∀ kv ∈ d1, ∀ l, kv.2 = RVal.ref l → m1.arrays.length ≤ l) →
              (∀ kv ∈ d2, ∀ l, kv.2 = RVal.ref l → m1.arrays.length ≤ l) →
              Keeps m (scaleBoth f1 f2 d1 d2 m2 r).1 ∧
              (∀ e, (scaleBoth f1 f2 d1 d2 m2 r).2 = .error e →
                scaleBothV f1 f2 (m2.vals d1) (m2.vals d2) = .error e) ∧
              ∀ r', (scaleBoth f1 f2 d1 d2 m2 r).2 = .ok r' → r' = r ∧
                Valid (scaleBoth f1 f2 d1 d2 m2 r).1 (r.1 ++ r.2) ∧
                scaleBothV f1 f2 (m2.vals d1) (m2.vals d2) =
                .ok ((scaleBoth f1 f2 d1 d2 m2 r).1.vals d1, (scaleBoth f1 f2 d1 d2 m2 r).1.vals d2) := by
            intro f1 f2 d1 d2 a1 a2 a3 a4 a5 a6 a7 a8 a9
            obtain ⟨b1, b2, b3, b4⟩ := scaleBoth_refines f1 f2 m2 r a1 a2 a3 a4 a5 a6 a7
            have hl12 := Nat.le_trans hm.1 c1.1
            refine ⟨⟨by rw [b1]; exact hl12, ?_⟩, b3, ?_⟩
            · intro l hl
              have dis : ∀ d : RState, (∀ kv ∈ d, ∀ l, kv.2 = RVal.ref l → m1.arrays.length ≤ l) →
                  Disjoint' d [("", .ref l)] := by
                intro d hd kv hkv kv2 hkv2 l' hl' hl2
                simp only [List.mem_singleton] at hkv2
                subst hkv2
                injection hl2 with hl2
                subst hl2
                exact absurd (hd kv hkv l hl') (by have := hm.1; omega)
              have := b2 [("", .ref l)] (dis d1 a8) (dis d2 a9)
              simp only [WMem.vals, Dict.mapVal, List.map_cons, List.map_nil, WMem.val, List.cons.injEq,
                Prod.mk.injEq, Val.da.injEq, and_true, true_and] at this
              rw [this]
              exact (hm.trans c1).2 l hl
            · intro r' hr'
              obtain ⟨e1, e2⟩ := b4 r' hr'
              exact ⟨e1, fun kv hkv l hl => by rw [b1]; exact hv kv hkv l hl, e2⟩
          by_cases hks : k = .stepper
          · dsimp only
            rw [if_pos hks, if_pos hks]
            obtain ⟨g1, g2, g3⟩ := main w.output w.diagnostic r.2 r.1 u2 u1 (disjoint_symm u3) hv2 hv1 hn2 hn1 hf2 hf1
            refine ⟨g1, fun e h => by rw [g2 e h]; rfl, fun r' h => ?_⟩
            obtain ⟨rfl, g4, g5⟩ := g3 r' h
            exact ⟨g4, by rw [g5]; rfl⟩
          · dsimp only
            rw [if_neg hks, if_neg hks]
            by_cases hkd : k = .diagnostic
            · rw [if_pos hkd, if_pos hkd]
              obtain ⟨g1, g2, g3⟩ := main [] w.diagnostic [] r.1 List.Pairwise.nil u1
                (fun _ h => (by cases h)) (fun _ h => (by cases h)) hv1 List.nodup_nil hn1
                (fun _ h => (by cases h)) hf1
              refine ⟨g1, fun e h => ?_, fun r' h => ?_⟩
              · have := g2 e h
                rw [show m2.vals [] = [] from rfl] at this
                rw [this]
                rfl
              · obtain ⟨rfl, g4, g5⟩ := g3 r' h
                rw [show m2.vals [] = [] from rfl] at g5
                refine ⟨g4, ?_⟩
                rw [g5, Exc.ok_bind]
                obtain ⟨-, b2, -, -⟩ := scaleBoth_refines [] w.diagnostic (d1 := []) (d2 := r'.1) m2 r'
                  List.Pairwise.nil u1 (fun _ h => (by cases h)) (fun _ h => (by cases h)) hv1 List.nodup_nil hn1
                rw [b2 r'.2 (fun _ h => (by cases h)) u3]
            · rw [if_neg hkd, if_neg hkd]
              obtain ⟨g1, g2, g3⟩ := main w.tendency w.diagnostic r.1 r.2 u1 u2 u3 hv1 hv2 hn1 hn2 hf1 hf2
              refine ⟨g1, g2, fun r' h => ?_⟩
              obtain ⟨rfl, g4, g5⟩ := g3 r' h
              exact ⟨g4, g5⟩

/-- The same call made `n` times, and what each returned. -/
def scalingRepeat (call : WMem σ → WMem σ × Except Err (RState × RState)) :
    Nat → WMem σ → WMem σ × List (Except Err (RState × RState))
  | 0, m => (m, [])
  | n + 1, m => ((scalingRepeat call n (call m).1).1, (call m).2 :: (scalingRepeat call n (call m).1).2)

/-- The values of a result. -/
def WMem.result (m : WMem σ) : Except Err (RState × RState) → Except Err (State × State)
  | .ok r => .ok (m.vals r.1, m.vals r.2)
  | .error e => .error e

/-- **C43, partial.**  Around a component that returns new arrays each time, however
often the same call is made, all results have the same values (or are all the same
exception), also when they are looked at after the last call, and the caller's state is
unchanged.  Missing from the full claim: components that return arrays they keep
(`scaling_compounds`, `scaling_compounds_update_frequency`). -/
theorem scaling_repeat_partial (w : Scaling) (o : Obj) (inKeys : List String) {comp : WComp σ}
    {F : State → Option Int → Except Err (State × State)} (hF : ReturnsSame comp F)
    (state : RState) (dt : Option Int) (S : State) :
    ∃ V, ∀ (m : WMem σ), Valid m state → m.vals state = S → ∀ n,
      (∀ r ∈ (scalingRepeat (fun m => w.call o inKeys comp m state dt) n m).2,
        (scalingRepeat (fun m => w.call o inKeys comp m state dt) n m).1.result r = V) ∧
      (scalingRepeat (fun m => w.call o inKeys comp m state dt) n m).1.vals state = S := by
  refine ⟨w.callV o inKeys F S dt, fun m hm hS n => ?_⟩
  suffices ∀ (m : WMem σ), Valid m state → m.vals state = S →
      (∀ r ∈ (scalingRepeat (fun m => w.call o inKeys comp m state dt) n m).2,
        (scalingRepeat (fun m => w.call o inKeys comp m state dt) n m).1.result r = w.callV o inKeys F S dt) ∧
      Keeps m (scalingRepeat (fun m => w.call o inKeys comp m state dt) n m).1 by
    obtain ⟨h1, h2⟩ := this m hm hS
    exact ⟨h1, (h2.vals hm).trans hS⟩
  clear hm hS m
  induction n with
  | zero => exact fun m _ _ => ⟨fun r hr => (by cases hr), Keeps.refl m⟩
  | succ n ih =>
    intro m hm hS
    obtain ⟨c1, c2, c3⟩ := scaling_call_refines w o inKeys hF m state hm dt
    obtain ⟨d1, d2⟩ := ih (w.call o inKeys comp m state dt).1 (c1.valid hm) ((c1.vals hm).trans hS)
    unfold scalingRepeat
    refine ⟨?_, c1.trans d2⟩
    intro r hr
    rcases List.mem_cons.1 hr with rfl | hr
    · cases hc : (w.call o inKeys comp m state dt).2 with
      | error e => rw [← hS]; exact (c2 e hc).symm
      | ok r =>
        obtain ⟨e1, e2⟩ := c3 r hc
        rw [← hS, e2]
        simp only [WMem.result]
        rw [d2.vals (fun kv hkv => e1 kv (List.mem_append_left _ hkv)),
          d2.vals (fun kv hkv => e1 kv (List.mem_append_right _ hkv))]
    · exact d1 r hr

end

namespace Demo

/-- A TendencyComponent and a Stepper as `isinstance` sees them. -/
def scTendency : Obj := ⟨requiredAttributes .tendency, [.tendency], some ⟨["self", "state"], []⟩⟩
def scStepper : Obj := ⟨requiredAttributes .stepper, [.stepper], some ⟨["self", "state", "timestep"], []⟩⟩

example : scalingKind scTendency = some .tendency ∧ scalingKind scStepper = some .stepper := by decide +kernel

/-- A TendencyComponent that keeps its array and returns it each time, as
ConstantTendencyComponent does (basic.py:119-136). -/
def keeping : WComp Unit := fun m _ _ => (m, .ok ([("q", .ref 0)], []))

end Demo

theorem scaled_get (a : DataArray) (c : Rat) (idx : List Nat) :
    (a.scaled c).arr.get idx = c * a.arr.get idx := rfl

/-- **C43, counterexample.**  Around a component that returns the same array object
each time, as ConstantTendencyComponent does, the factor is applied once more with
every call: after `n` calls the tendency is the component's times `c ^ n`, and so are
all results returned before. -/
theorem scaling_compounds (a : DataArray) (c : Rat) (n : Nat) :
    ∀ r ∈ (scalingRepeat (fun m => ({ tendency := [("q", c)] } : Scaling).call Demo.scTendency [] Demo.keeping m [] none)
        n ⟨(), [a]⟩).2, r = .ok ([("q", .ref 0)], []) ∧
      IsScaledBy (c ^ n) a ((scalingRepeat
        (fun m => ({ tendency := [("q", c)] } : Scaling).call Demo.scTendency [] Demo.keeping m [] none)
        n ⟨(), [a]⟩).1.at' 0) := by
  have hk : scalingKind Demo.scTendency = some .tendency := by decide +kernel
  have step : ∀ b : DataArray, ({ tendency := [("q", c)] } : Scaling).call Demo.scTendency [] Demo.keeping ⟨(), [b]⟩ [] none =
      (⟨(), [b.scaled c]⟩, .ok ([("q", .ref 0)], [])) := by
    intro b
    rw [scaling_call_eq _ _ _ _ ⟨(), [b]⟩ _ _ (m1 := ⟨(), [b]⟩) (s1 := []) rfl hk]
    rfl
  have main : ∀ n (b : DataArray), ∃ b', IsScaledBy (c ^ n) b b' ∧ scalingRepeat
      (fun m => ({ tendency := [("q", c)] } : Scaling).call Demo.scTendency [] Demo.keeping m [] none) n ⟨(), [b]⟩ =
      (⟨(), [b']⟩, List.replicate n (.ok ([("q", .ref 0)], []))) := by
    intro n
    induction n with
    | zero => exact fun b => ⟨b, ⟨rfl, rfl, rfl, fun idx => by simp⟩, rfl⟩
    | succ n ih =>
      intro b
      obtain ⟨b', h1, h2⟩ := ih (b.scaled c)
      refine ⟨b', ⟨h1.1, h1.2.1, h1.2.2.1, fun idx => ?_⟩, ?_⟩
      · rw [h1.2.2.2, scaled_get]
        ring
      · unfold scalingRepeat
        rw [step b, h2]
        rfl
  obtain ⟨b', h1, h2⟩ := main n a
  intro r hr
  rw [h2] at hr ⊢
  exact ⟨(List.mem_replicate.1 hr).2, h1⟩

/-- An UpdateFrequencyWrapper as a component: its cache is part of the world. -/
def UFW.comp {τ : Type} (inner : WComp τ) : WComp (τ × UFW (RState × RState)) := fun m s dt =>
  let r := m.world.2.call
    (fun s : RState => match Dict.get? s "time" with | some (.time t) => .ok t | _ => .error .keyError)
    (fun (m : WMem τ) s dt => inner m s dt) ⟨m.world.1, m.arrays⟩ s dt
  (⟨(r.2.1.world, r.1), r.2.1.arrays⟩,
    match r.2.2 with
    | .ok (some o) => .ok o
    | .ok none => .error .typeError
    | .error e => .error e)

namespace Demo

/-- A component that returns a new array each time. -/
def fresh (a : DataArray) : WComp Unit := fun m _ _ => ((m.alloc a).1, .ok ([("q", .ref (m.alloc a).2)], []))

/-- `fresh` returns the same result each time. -/
theorem fresh_returnsSame (a : DataArray) :
    ReturnsSame (fresh a) (fun _ _ => .ok ([("q", .da a)], [])) := by
  intro m s dt hs
  refine ⟨(m.alloc_extends a).keeps, fun e h => (by cases h), fun r h => ?_⟩
  injection h with h
  subst h
  refine ⟨?_, ?_, ?_, by simp [Dict.keys], by simp [Dict.keys], ?_⟩
  · simp only [fresh, WMem.vals, Dict.mapVal, List.map_cons, List.map_nil, WMem.val, m.at_alloc]
  · simp [Unshared]
  · intro kv hkv l hl
    simp only [List.append_nil, List.mem_singleton] at hkv
    subst hkv
    injection hl with hl
    subst hl
    simp [fresh, WMem.alloc]
  · intro kv hkv l hl
    simp only [List.append_nil, List.mem_singleton] at hkv
    subst hkv
    injection hl with hl
    subst hl
    simp [WMem.alloc]

end Demo

/-- **C43, counterexample.**  Around an UpdateFrequencyWrapper, which returns its cached
output objects until an update is due, the factor is applied again with every call,
although the innermost component returns new arrays. -/
theorem scaling_compounds_update_frequency (a : DataArray) (c : Rat) (t delta : Int) (hd : 0 < delta) (n : Nat) :
    ∀ r ∈ (scalingRepeat (fun m => ({ tendency := [("q", c)] } : Scaling).call Demo.scTendency []
        (UFW.comp (Demo.fresh a)) m [("time", .time t)] none) (n + 1) ⟨((), { delta := delta }), []⟩).2,
      r = .ok ([("q", .ref 0)], []) ∧
      IsScaledBy (c ^ (n + 1)) a ((scalingRepeat (fun m => ({ tendency := [("q", c)] } : Scaling).call Demo.scTendency []
        (UFW.comp (Demo.fresh a)) m [("time", .time t)] none) (n + 1) ⟨((), { delta := delta }), []⟩).1.at' 0) := by
  have hk : scalingKind Demo.scTendency = some .tendency := by decide +kernel
  have first : ({ tendency := [("q", c)] } : Scaling).call Demo.scTendency [] (UFW.comp (Demo.fresh a))
      ⟨((), { delta := delta }), []⟩ [("time", .time t)] none =
      (⟨((), { delta := delta, cached := some ([("q", .ref 0)], []), last := some t }), [a.scaled c]⟩,
        .ok ([("q", .ref 0)], [])) := by
    rw [scaling_call_eq _ _ _ _ _ _ _ (m1 := ⟨((), { delta := delta }), []⟩) (s1 := [("time", .time t)]) rfl hk]
    rfl
  have step : ∀ b : DataArray, ({ tendency := [("q", c)] } : Scaling).call Demo.scTendency [] (UFW.comp (Demo.fresh a))
      ⟨((), { delta := delta, cached := some ([("q", .ref 0)], []), last := some t }), [b]⟩ [("time", .time t)] none =
      (⟨((), { delta := delta, cached := some ([("q", .ref 0)], []), last := some t }), [b.scaled c]⟩,
        .ok ([("q", .ref 0)], [])) := by
    intro b
    rw [scaling_call_eq _ _ _ _ _ _ _ (m1 := ⟨((), { delta := delta, cached := some ([("q", .ref 0)], []), last := some t }), [b]⟩)
      (s1 := [("time", .time t)]) rfl hk]
    have hc : UFW.comp (Demo.fresh a)
        ⟨((), { delta := delta, cached := some ([("q", .ref 0)], []), last := some t }), [b]⟩ [("time", .time t)] none =
        (⟨((), { delta := delta, cached := some ([("q", .ref 0)], []), last := some t }), [b]⟩,
          .ok ([("q", .ref 0)], [])) := by
      have hlt : ¬ (t ≥ t + delta) := by omega
      unfold UFW.comp UFW.call
      simp only [Dict.get?]
      simp [hlt]
    simp only [takesTimestep, Bool.false_eq_true, false_and, if_false, hc]
    rfl
  have main : ∀ n (b : DataArray), ∃ b', IsScaledBy (c ^ n) b b' ∧ scalingRepeat
      (fun m => ({ tendency := [("q", c)] } : Scaling).call Demo.scTendency [] (UFW.comp (Demo.fresh a)) m [("time", .time t)] none) n
        ⟨((), { delta := delta, cached := some ([("q", .ref 0)], []), last := some t }), [b]⟩ =
      (⟨((), { delta := delta, cached := some ([("q", .ref 0)], []), last := some t }), [b']⟩,
        List.replicate n (.ok ([("q", .ref 0)], []))) := by
    intro n
    induction n with
    | zero => exact fun b => ⟨b, ⟨rfl, rfl, rfl, fun idx => by simp⟩, rfl⟩
    | succ n ih =>
      intro b
      obtain ⟨b', h1, h2⟩ := ih (b.scaled c)
      refine ⟨b', ⟨h1.1, h1.2.1, h1.2.2.1, fun idx => ?_⟩, ?_⟩
      · rw [h1.2.2.2, scaled_get]
        ring
      · unfold scalingRepeat
        rw [step b, h2]
        rfl
  obtain ⟨b', h1, h2⟩ := main n (a.scaled c)
  have hall : scalingRepeat (fun m => ({ tendency := [("q", c)] } : Scaling).call Demo.scTendency []
        (UFW.comp (Demo.fresh a)) m [("time", .time t)] none) (n + 1) ⟨((), { delta := delta }), []⟩ =
      (⟨((), { delta := delta, cached := some ([("q", .ref 0)], []), last := some t }), [b']⟩,
        List.replicate (n + 1) (.ok ([("q", .ref 0)], []))) := by
    unfold scalingRepeat
    rw [first, h2]
    rfl
  intro r hr
  rw [hall] at hr ⊢
  refine ⟨(List.mem_replicate.1 hr).2, h1.1, h1.2.1, h1.2.2.1, fun idx => ?_⟩
  show b'.arr.get idx = _
  rw [h1.2.2.2, scaled_get]
  ring

/-! ## Examples -/

namespace Demo

/-- One quantity at two points. -/
def scArr (x y : Rat) : DataArray :=
  ⟨["p"], ⟨[2], fun idx => if idx = [0] then x else y⟩, [("units", "K")]⟩

def scVals (m : WMem Unit) (l : Nat) : List Rat := [(m.at' l).arr.get [0], (m.at' l).arr.get [1]]

/-- Returns new arrays: its input times 10 as the tendency of `q`, and its input as
the diagnostic `d`. -/
def scComp : WComp Unit := fun m s _ =>
  match Dict.get? s "q" with
  | some (.ref l) =>
    let m1 := m.alloc ((m.at' l).scaled 10)
    let m2 := m1.1.alloc (m.at' l)
    (m2.1, .ok ([("q", .ref m1.2)], [("d", .ref m2.2)]))
  | _ => (m, .error .keyError)

def scW : Scaling := { input := [("q", 2)], tendency := [("q", 3)] }

def scMem : WMem Unit := ⟨(), [scArr 1 2]⟩

def scState : RState := [("time", .time 5), ("q", .ref 0), ("other", .ref 0)]

/-- A Stepper whose output is its input array. -/
def scIdentity : WComp Unit := fun m s _ =>
  match Dict.get? s "q" with
  | some v => (m, .ok ([], [("q", v)]))
  | none => (m, .error .keyError)

/-- A TendencyComponent returning one new array under two names. -/
def scShared : WComp Unit := fun m _ _ =>
  let a := m.alloc (scArr 1 2)
  (a.1, .ok ([("p", .ref a.2), ("q", .ref a.2)], []))

end Demo

open Demo in
/-- Input times 2, tendency times 3: `q = [1, 2]` gives the tendency `[60, 120]` and the
diagnostic `[2, 4]`; the state is unchanged. -/
example : (match scW.call scTendency ["q"] scComp scMem scState none with
    | (m', .ok ([("q", .ref i)], [("d", .ref j)])) =>
      scVals m' i == [60, 120] && scVals m' j == [2, 4] && scVals m' 0 == [1, 2] &&
      (m'.at' i).attrs == [("units", "K")]
    | _ => false) = true := by decide +kernel

open Demo in
/-- The arrays returned are distinct and new: the hypotheses of
`scaling_wrapper_partial` are met. -/
example : scW.Dicts ∧ Valid scMem scState := by
  refine ⟨by simp [Scaling.Dicts, scW, Dict.keys], ?_⟩
  intro kv hkv l hl
  simp only [scState, List.mem_cons, List.not_mem_nil, or_false] at hkv
  rcases hkv with rfl | rfl | rfl
  · cases hl
  · injection hl with hl; subst hl; decide
  · injection hl with hl; subst hl; decide

open Demo in
/-- **C42, counterexample.**  A component that returns one array under two names: the
factor of `p` also multiplies `q`, which has none. -/
theorem scaling_shared_array : (match ({ tendency := [("p", 3)] } : Scaling).call scTendency [] scShared scMem [] none with
    | (m', .ok ([("p", .ref i), ("q", .ref j)], [])) =>
      scVals m' i == [3, 6] && scVals m' j == [3, 6] && scVals (scShared scMem [] none).1 j == [1, 2]
    | _ => false) = true := by decide +kernel

open Demo in
/-- **C42, counterexample.**  A Stepper that returns its input array as its output: the
factor of the output changes the caller's state. -/
theorem scaling_changes_state : (match ({ output := [("q", 3)] } : Scaling).call scStepper ["q"] scIdentity scMem scState (some 1) with
    | (m', .ok ([], [("q", .ref i)])) => scVals m' i == [3, 6] && scVals scMem 0 == [1, 2] && scVals m' 0 == [3, 6]
    | _ => false) = true := by decide +kernel

open Demo in
/-- Construction: known names are accepted, an unknown one is a ValueError, an object of
no kind a TypeError. -/
example : let props : HasProps := { input := some [("q", {})], tendency := some [("q", {})], diagnostic := some [] }
    (Exc.test (Scaling.make scTendency props (some [("q", 2)]) none (some [("q", 3)]) none)
        (fun w => w.input == [("q", 2)] && w.tendency == [("q", 3)] && w.diagnostic == []) &&
      Exc.failsWith (Scaling.make scTendency props none none (some [("q", 3), ("p", 1)]) none) .valueError &&
      Exc.failsWith (Scaling.make ⟨[], [], none⟩ props none none none none) .typeError) = true := by
  decide +kernel

open Demo in
/-- Factors for outputs, around a TendencyComponent. -/
example : Exc.failsWith (Scaling.make scTendency { input := some [], tendency := some [("q", {})], diagnostic := some [] }
    none (some []) none none) .typeError = true := by decide +kernel

open Demo in
/-- A component that needs `tracer`, around which every call raises although the state
has it. -/
example : (match (({} : Scaling).call scTendency ["q"] (fun m s _ => (m, if "tracer" ∈ Dict.keys s then .ok ([], []) else .error .keyError))
    scMem (("tracer", .ref 0) :: scState) none).2 with | .error .keyError => true | _ => false) = true := by
  decide +kernel

open Demo in
/-- Three calls around `keeping`: 2, 4, 8 times the constant tendency. -/
example : scVals (scalingRepeat (fun m => ({ tendency := [("q", 2)] } : Scaling).call scTendency [] keeping m [] none)
    3 ⟨(), [scArr 1 5]⟩).1 0 = [8, 40] := by decide +kernel

end Verif

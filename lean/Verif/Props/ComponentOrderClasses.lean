import Verif.Props.ComponentOrderRuns
import Verif.Lemmas.StepperDiff
/-!
# C100: component classes to which it applies
-/

namespace Verif

/-- The dims lists do not repeat a dim; one with a wildcard lists nothing else. -/
def PlainLists (inP outP : PropDict) : Prop :=
  (∀ kv ∈ inP, ∀ ds, kv.2.dims = some ds → ds.Nodup ∧ ("*" ∈ ds → ds = ["*"])) ∧
  ∀ kv ∈ outP, ∀ ds, effDims inP kv.1 kv.2 = some ds → ds.Nodup ∧ ("*" ∈ ds → ds = ["*"])

/-- Declared units are not offset units. -/
def PlainUnits (R : Registry) (outP : PropDict) : Prop :=
  ∀ kv ∈ outP, ∀ own u, kv.2.units = some own → R.parse own = some u → u.offset = 0

/-- `array_call` returns the same whatever the world: the component has no memory and
shares none. -/
def Memoryless {σ : Type} (ac : σ → RawState → σ × Except Err (Dict NDArray × Dict NDArray)) : Prop :=
  ∀ x x' raw, (ac x raw).2 = (ac x' raw).2

section
variable {R : Registry} {σ : Type} {c : Class} {i : Inst}

theorem sameAxes_of {s s' : State} (hl : PlainLists c.inProps c.outProps) (h : SameStates s s') :
    SameAxes s s' c.inProps where
  same := h.same.named
  wf := (h.same.proper h.left).wf
  wf' := (h.same.symm.proper h.right).wf
  star := (h.same.proper h.left).star
  dims := ⟨fun kv hkv d hd => (hl.1 kv hkv d hd).1, fun kv hkv ds hds hs d hd hm => by
    rw [(hl.1 kv hkv ds hds).2 hs, List.mem_singleton] at hm
    subst hm
    obtain ⟨q, hq, hq1, -⟩ := mem_wildSpec.1 hd
    obtain ⟨kv', -, h1, -⟩ := mem_requested.1 hq
    exact (h.same.proper h.left).star _ _ h1 hq1⟩
  time := (h.same.proper h.left).time

theorem callTendency_memoryless {g : Tracers} {ac : σ → RawState → σ × Except Err (Dict NDArray × Dict NDArray)}
    (hm : Memoryless ac) (x x' : σ) (s : State) : (callTendency R g c i ac x s).2 = (callTendency R g c i ac x' s).2 := by
  unfold callTendency
  cases prepare R g c i s with
  | error e => rfl
  | ok raw =>
    dsimp only
    rw [hm x x' raw]

theorem insertTendencies_nodup (inst : String) (d : Dict DataArray) : ∀ {e : Dict DataArray}, e.keys.Nodup →
    (insertTendencies inst d e).keys.Nodup := by
  induction d with
  | nil => intro e he; exact he
  | cons kv d ih =>
    intro e he
    unfold insertTendencies
    exact ih (Dict.nodup_keys_set he _ _)

/-- What a successful call returns. -/
theorem callTendency_fine (hR : R.Faithful) (g : Tracers) (hc : PlainClass c i) (hl : PlainLists c.inProps c.outProps)
    {ac : σ → RawState → σ × Except Err (Dict NDArray × Dict NDArray)}
    (hac : AxisBlind c c.outProps c.diagProps [] i.ignored ac) {s : State} (hs : ProperState s) {x : σ} {r : TendOut}
    (hr : (callTendency R g c i ac x s).2 = .ok r) :
    (Dict.keys r.1).Nodup ∧ (Dict.keys r.2).Nodup ∧ ∀ n a, Dict.get? r.1 n = some a →
      a.Fine ∧ ∃ kv ∈ c.outProps, kv.1 = n ∧ a.attrs.get? "units" = kv.2.units := by
  have hsame := sameAxes_of hl (SameStates.refl hs)
  unfold callTendency at hr
  rcases prepare_layout hR g hc hsame with ⟨e, e', p1, p2⟩ | ⟨raw, raw', L, p1, p2, ht, ⟨o, hi⟩, -, hL, -, hin⟩
  · rw [p1] at hr; cases hr
  · rw [p1] at hr p2
    cases p2
    obtain ⟨⟨rt, rd⟩, h1, hr⟩ := Exc.bind_ok_iff.1 hr
    obtain ⟨-, hrel⟩ := hac _ _ L x raw raw (List.Perm.refl _) rfl hin
    rw [h1] at hrel
    obtain ⟨⟨-, M, hM1, hM2, hM⟩, -⟩ := hrel
    dsimp only at hr hM
    unfold finishTendency takeTracers at hr
    rw [hc.packer] at hr
    obtain ⟨tr, htr, hr⟩ := Exc.bind_ok_iff.1 hr
    cases htr
    obtain ⟨_, -, hr⟩ := Exc.bind_ok_iff.1 hr
    obtain ⟨_, -, hr⟩ := Exc.bind_ok_iff.1 hr
    obtain ⟨tend, ht, hr⟩ := Exc.bind_ok_iff.1 hr
    obtain ⟨diag, hd, hr⟩ := Exc.bind_ok_iff.1 hr
    cases hr
    dsimp only
    obtain ⟨hn, hgood⟩ := hc.outs
    obtain ⟨out, e1, f1⟩ := restored_values s c.inProps c.outProps rt [] M hs.wf hn ⟨R, o, hi⟩
      (by
        intro q hq d hd
        rw [← hL.1 q hq d hd]
        obtain ⟨kv, hkv, k1, k2⟩ := mem_requested.1 hq
        by_cases hin : d ∈ q.2
        · exact hM2 kv hkv q.2 k2 d hin fun e => hs.star _ _ k1 (e ▸ hd)
        · exact hM1 d (mem_wildSpec.2 ⟨q, hq, hd, hin⟩))
      (by
        intro kv hkv hi
        obtain ⟨dims, units, g1, g2, g3, g4⟩ := hgood kv hkv
        obtain ⟨a, a', m1, m2, m3⟩ := hM kv hkv hi dims g1
        exact ⟨dims, units, a, g1, g2, g3, g4, m1, m3.shape⟩)
    rw [ht] at e1
    cases e1
    refine ⟨Dict.nodup_keys_update (by simp [Dict.keys]) _, ?_, fun n a ha => ?_⟩
    · split
      · exact insertTendencies_nodup _ _ (restore_nodup hd)
      · exact restore_nodup hd
    · rw [Dict.get?_update _ _ (restore_nodup ht)] at ha
      have ha : tend.get? n = some a := by
        cases hg : Dict.get? tend n with
        | none => rw [hg] at ha; cases ha
        | some b => rw [hg] at ha; exact ha
      obtain ⟨p, hp⟩ := Dict.get?_of_mem_keys ((restore_keys hn ht n).1 (Dict.mem_keys_of_get? ha)).1
      have hm := Dict.mem_of_get? hp
      obtain ⟨dims, units, a0, da, a1, a2, a3, a4, a5, a6, a7, a8⟩ := f1 _ hm (by simp)
      dsimp only at a4
      rw [ha] at a4; cases a4
      obtain ⟨hnd, hst⟩ := hl.2 _ hm dims a1
      refine ⟨⟨⟨by rw [a7, List.length_map], ?_⟩, ?_⟩, _, hm, rfl, by rw [a5, a2]; rfl⟩
      · rw [a6]
        by_cases hstar : "*" ∈ dims
        · rw [hst hstar]
          show (wildSpec (requested s c.inProps) ++ []).Nodup
          rw [List.append_nil]
          exact nodup_wildSpec _
        · have : outDimsSpec dims (wildSpec (requested s c.inProps)) = dims := by
            have : ∀ l : List String, "*" ∉ l → outDimsSpec l (wildSpec (requested s c.inProps)) = l := by
              intro l
              induction l with
              | nil => intro _; rfl
              | cons d l ih =>
                intro hl
                have := ih fun h => hl (List.mem_cons_of_mem _ h)
                unfold outDimsSpec at this ⊢
                rw [List.flatMap_cons, this, if_neg fun e : d = "*" => hl (e ▸ List.mem_cons_self)]
                rfl
            exact this dims hstar
          rw [this]
          exact hnd
      · rw [a6]
        intro hm
        rcases mem_outDimsSpec.1 hm with ⟨-, h2⟩ | ⟨-, h2⟩
        · exact h2 rfl
        · obtain ⟨q, hq, hq1, -⟩ := mem_wildSpec.1 h2
          obtain ⟨kv', -, k1, -⟩ := mem_requested.1 hq
          exact hs.star _ _ k1 hq1

/-- **C100, component classes.**  A tendency component (implicit or not) made of a class that
takes no tracers, whose dims lists are plain, and whose `array_call` has no memory and works
the same whatever the order of the dims in a wildcard, is one of those C100 speaks of. -/
theorem class_independent (hR : R.Faithful) (g : Tracers) (hc : PlainClass c i) (hl : PlainLists c.inProps c.outProps)
    (hu : PlainUnits R c.outProps) {ac : Int → σ → RawState → σ × Except Err (Dict NDArray × Dict NDArray)}
    (hac : ∀ dt, AxisBlind c c.outProps c.diagProps [] i.ignored (ac dt)) (hm : ∀ dt, Memoryless (ac dt)) {m : Comp σ}
    (hcall : ∀ state dt x, implicitCall m state dt x = callTendency R g c i (ac dt) x state) : m.Independent R where
  same := fun x x' s s' dt h => by
    rw [hcall, hcall, callTendency_memoryless (hm dt) x' x s']
    exact ((components_axis_order hR g hc (sameAxes_of hl h) x).1 _ (hac dt)).2
  returns := fun x s dt r hs hr => by
    rw [hcall] at hr
    obtain ⟨h1, h2, h3⟩ := callTendency_fine hR g hc hl (hac dt) hs hr
    refine ⟨h1, h2, fun n a ha => ?_⟩
    obtain ⟨h4, kv, hkv, -, h5⟩ := h3 n a ha
    exact ⟨h4, fun own u ho hp => hu kv hkv own u (h5 ▸ ho) hp⟩

/-- Components of classes with no diagnostic in common, without
`tendencies_in_diagnostics`. -/
theorem classes_apart {g g' : Tracers} {c' : Class} {i' : Inst} (hn : c.diagProps.keys.Nodup) (hn' : c'.diagProps.keys.Nodup)
    (ht : i.tid = false) (ht' : i'.tid = false) (hdis : ∀ n, ¬ (n ∈ c.diagProps.keys ∧ n ∈ c'.diagProps.keys))
    {ac ac' : Int → σ → RawState → σ × Except Err (Dict NDArray × Dict NDArray)} {m m' : Comp σ}
    (hcall : ∀ state dt x, implicitCall m state dt x = callTendency R g c i (ac dt) x state)
    (hcall' : ∀ state dt x, implicitCall m' state dt x = callTendency R g' c' i' (ac' dt) x state) :
    DiagnosticsApart m m' := by
  have key : ∀ {g : Tracers} {c : Class} {i : Inst} {ac : σ → RawState → σ × Except Err (Dict NDArray × Dict NDArray)}
      {x : σ} {s : State} {r : TendOut}, c.diagProps.keys.Nodup → i.tid = false →
      (callTendency R g c i ac x s).2 = .ok r → ∀ n ∈ Dict.keys r.2, n ∈ c.diagProps.keys := by
    intro g c i ac x s r hn ht hr n hm
    unfold callTendency at hr
    cases hp : prepare R g c i s with
    | error e => rw [hp] at hr; cases hr
    | ok raw =>
      rw [hp] at hr
      obtain ⟨⟨rt, rd⟩, -, hr⟩ := Exc.bind_ok_iff.1 hr
      unfold finishTendency at hr
      obtain ⟨tr, -, hr⟩ := Exc.bind_ok_iff.1 hr
      obtain ⟨_, -, hr⟩ := Exc.bind_ok_iff.1 hr
      obtain ⟨_, -, hr⟩ := Exc.bind_ok_iff.1 hr
      obtain ⟨tend, -, hr⟩ := Exc.bind_ok_iff.1 hr
      obtain ⟨diag, hd, hr⟩ := Exc.bind_ok_iff.1 hr
      rw [ht] at hr
      cases hr
      exact ((restore_keys hn hd n).1 hm).1
  intro x x' s dt r r' _ hr hr' n hmem
  rw [hcall] at hr
  rw [hcall'] at hr'
  exact hdis n ⟨key hn ht hr n hmem.1, key hn' ht' hr' n hmem.2⟩

end

/-! ## Concrete cases -/

namespace Demo

/-- `T` changes at a rate declared in `units`, proportional to `T`; `T` is echoed as the
diagnostic `d`. -/
def heatCls (d units : String) : Class where
  kind := .tendency
  inProps := [("T", { dims := some ["*"], units := some "K" })]
  outProps := [("T", { units := some units })]
  diagProps := [(d, { dims := some ["*"], units := some "K" })]

/-- Counts calls, but returns the same whatever the count. -/
def heatAc (d : String) (x : Rat) : Nat → RawState → Nat × Except Err (Dict NDArray × Dict NDArray) := fun n raw =>
  (n + 1, raw.arrays.get "T" >>= fun t => .ok ([("T", t.map (x * ·))], [(d, t)]))

def heatComp (d units : String) (x : Rat) : Comp Nat where
  cls := heatCls d units
  obj := tendObj
  callT := fun s state => callTendency reg {} (heatCls d units) plainInst (heatAc d x) s state
  callI := fun s _ _ => (s, .error .typeError)

theorem heat_plain (d units : String) : PlainClass (heatCls d units) plainInst where
  packer := rfl
  one := by
    intro kv hkv ds hds
    simp only [heatCls, List.mem_singleton] at hkv
    subst hkv
    cases hds
    decide
  keys := by simp [heatCls]
  outs := by
    refine ⟨by simp [heatCls, Dict.keys], ?_⟩
    intro kv hkv
    simp only [heatCls, List.mem_singleton] at hkv
    subst hkv
    exact ⟨["*"], units, rfl, rfl, by decide, fun _ => ⟨_, List.mem_cons_self, _, rfl, by decide⟩⟩
  diags := by
    refine ⟨by simp [heatCls, Dict.keys], ?_⟩
    intro kv hkv
    simp only [heatCls, List.mem_singleton] at hkv
    subst hkv
    exact ⟨["*"], "K", rfl, rfl, by decide, fun _ => ⟨_, List.mem_cons_self, _, rfl, by decide⟩⟩

theorem heat_lists (d units : String) : PlainLists (heatCls d units).inProps (heatCls d units).outProps := by
  constructor
  all_goals
    intro kv hkv ds hds
    simp only [heatCls, List.mem_singleton] at hkv
    subst hkv
    cases hds
    exact ⟨by decide, fun _ => rfl⟩

theorem heat_blind (d units : String) (hd : d ≠ "T") (x : Rat) :
    AxisBlind (heatCls d units) (heatCls d units).outProps (heatCls d units).diagProps [] plainInst.ignored (heatAc d x) := by
  intro W W' L s raw raw' _ _ hin
  obtain ⟨a, a', h1, h2, h3⟩ := hin.2 ("T", _) List.mem_cons_self ["*"] rfl
  have e1 : raw.arrays.get "T" = .ok a := Dict.get_eq_ok.2 h1
  have e2 : raw'.arrays.get "T" = .ok a' := Dict.get_eq_ok.2 h2
  unfold heatAc
  rw [e1, e2]
  refine ⟨rfl, ⟨rfl, L, fun _ _ => rfl, fun _ _ _ _ _ _ _ => rfl, ?_⟩, ⟨rfl, L, fun _ _ => rfl, fun _ _ _ _ _ _ _ => rfl, ?_⟩⟩
  · intro kv hkv _ dims hds
    simp only [heatCls, List.mem_singleton] at hkv
    subst hkv
    cases hds
    refine ⟨_, _, rfl, rfl, h3.shape, h3.shape', fun ix hix => ?_⟩
    show x * a.get _ = x * a'.get _
    rw [h3.val ix hix]
  · intro kv hkv _ dims hds
    simp only [heatCls, List.mem_singleton] at hkv
    subst hkv
    have hn : getAliasOrName d (heatCls d units).diagProps (heatCls d units).inProps = d := by
      simp [getAliasOrName, heatCls, Dict.get?, Ne.symm hd]
    have hdim : effDims (heatCls d units).inProps d { dims := some ["*"], units := some "K" } = some ["*"] := by
      simp [effDims]
    dsimp only at hds ⊢
    rw [hdim] at hds
    cases hds
    rw [hn]
    refine ⟨a, a', ?_, ?_, h3⟩ <;> simp [Dict.get?]

theorem heat_call (d units : String) (x : Rat) (state : State) (dt : Int) (s : Nat) :
    implicitCall (heatComp d units x) state dt s =
      callTendency reg {} (heatCls d units) plainInst (heatAc d x) s state := rfl

theorem heat_independent {d units : String} (hd : d ≠ "T") (hu : ∀ u, reg.parse units = some u → u.offset = 0) (x : Rat) :
    (heatComp d units x).Independent reg :=
  class_independent reg_faithful {} (heat_plain d units) (heat_lists d units)
    (by
      intro kv hkv own u ho hp
      simp only [heatCls, List.mem_singleton] at hkv
      subst hkv
      cases ho
      exact hu u hp)
    (ac := fun _ => heatAc d x) (fun _ => heat_blind d units hd x) (fun _ _ _ _ => rfl) (heat_call d units x)

def warm1 : Comp Nat := heatComp "a" "K s^-1" (1 / 10)
def warm2 : Comp Nat := heatComp "b" "K day^-1" 8640

theorem warm_independent : ∀ c ∈ [warm1, warm2], c.Independent reg := by
  intro c hc
  simp only [List.mem_cons, List.not_mem_nil, or_false] at hc
  rcases hc with rfl | rfl
  · exact heat_independent (by decide) (fun u h => by cases h; rfl) _
  · exact heat_independent (by decide) (fun u h => by cases h; rfl) _

theorem warm_apart : [warm1, warm2].Pairwise DiagnosticsApart := by
  refine List.pairwise_cons.2 ⟨fun c hc => ?_, List.pairwise_singleton _ _⟩
  rw [List.mem_singleton] at hc
  subst hc
  refine classes_apart (by decide) (by decide) rfl rfl ?_ (heat_call _ _ _) (heat_call _ _ _)
  rintro n ⟨h1, h2⟩
  simp only [heatCls, Dict.keys, List.map_cons, List.map_nil, List.mem_singleton] at h1 h2
  exact absurd (h1.symm.trans h2) (by decide)

theorem state_proper : ProperState state where
  keys := by decide
  wf := state_wf
  star := state_axes.star
  time := state_axes.time

end Demo

open Demo in
/-- C100 for two components whose tendencies are in different units; the result has its
units from the first. -/
example : SameComponents reg (callImplicitComposite reg [warm1, warm2]) (callImplicitComposite reg [warm2, warm1]) ∧
    (Exc.test (callImplicitComposite reg [warm1, warm2] 0 state 0).2 fun r => decide (Dict.keys r.2 = ["a", "b"]) &&
      (r.1.get? "T").any fun t => decide (t.attrs = [("units", "K s^-1")] ∧ t.arr.get [1, 2, 0] = 24)) = true ∧
    (Exc.test (callImplicitComposite reg [warm2, warm1] 0 state 0).2 fun r => decide (Dict.keys r.2 = ["b", "a"]) &&
      (r.1.get? "T").any fun t => decide (t.attrs = [("units", "K day^-1")] ∧ t.arr.get [1, 2, 0] = 24 * 86400)) = true :=
  ⟨components_in_any_order reg_faithful (List.Perm.swap _ _ _) warm_independent warm_apart, by decide +kernel, by decide +kernel⟩

open Demo in
/-- Runs of three steps, of one second each, complete in both orders. -/
example : SameEnds
      (runSteps (tsCall reg [] [] "" false (abCall reg (callImplicitComposite reg [warm1, warm2]))) 1000000 3 { order := 2 } 0 state)
      (runSteps (tsCall reg [] [] "" false (abCall reg (callImplicitComposite reg [warm2, warm1]))) 1000000 3 { order := 2 } 7 state) ∧
    ((runSteps (tsCall reg [] [] "" false (abCall reg (callImplicitComposite reg [warm1, warm2]))) 1000000 3
      { order := 2 } 0 state).any fun r => (Dict.get? r.2.2 "T").isSome && r.2.1 == 6) = true ∧
    SameEnds
      (runSteps (tsCall reg [] [] "" false (sspCall reg (callImplicitComposite reg [warm1, warm2]) true)) 1000000 3 { order := 1 } 0 state)
      (runSteps (tsCall reg [] [] "" false (sspCall reg (callImplicitComposite reg [warm2, warm1]) true)) 1000000 3 { order := 1 } 7 state) ∧
    ((runSteps (tsCall reg [] [] "" false (sspCall reg (callImplicitComposite reg [warm1, warm2]) true)) 1000000 3
      { order := 1 } 0 state).any fun r => (Dict.get? r.2.2 "T").isSome && r.2.1 == 18) = true ∧
    SameEnds
      (runSteps (tsCall reg [] [] "" false (LF.call reg (callImplicitComposite reg [warm1, warm2]))) 1000000 3
        { strength := 1 / 20, alpha := 1 / 2 } 0 state)
      (runSteps (tsCall reg [] [] "" false (LF.call reg (callImplicitComposite reg [warm2, warm1]))) 1000000 3
        { strength := 1 / 20, alpha := 1 / 2 } 7 state) ∧
    ((runSteps (tsCall reg [] [] "" false (LF.call reg (callImplicitComposite reg [warm1, warm2]))) 1000000 3
      { strength := 1 / 20, alpha := 1 / 2 } 0 state).any fun r => (Dict.get? r.2.2 "T").isSome && r.2.1 == 6) = true := by
  refine ⟨?_, by decide +kernel, ?_, by decide +kernel, ?_, by decide +kernel⟩
  · exact ab_components_in_any_order reg_faithful (List.Perm.swap _ _ _) warm_independent warm_apart state_proper _ _ _ _ _ _ _
      _ _ _ (order := 2) rfl
  · exact ssprk_components_in_any_order reg_faithful (List.Perm.swap _ _ _) warm_independent warm_apart state_proper _ _ _ _ _ _
      _ _ _ _ true rfl
  · exact lf_components_in_any_order reg_faithful (List.Perm.swap _ _ _) warm_independent warm_apart state_proper _ _ _ _ _ _ _
      _ _ _ _ _

namespace Demo

/-- Returns the number of calls of components so far as the tendency of `T`. -/
def countComp : Comp Nat where
  cls := heatCls "c" "K s^-1"
  obj := tendObj
  callT := fun s _ => (s + 1, .ok ([("T", { dims := [], arr := ⟨[], fun _ => (s : Rat)⟩, attrs := [("units", "K s^-1")] })], []))
  callI := fun s _ _ => (s, .error .typeError)

end Demo

open Demo in
/-- **C100, the proviso.**  With memory shared between components the order matters, even for
one step from one state. -/
theorem order_matters_with_memory :
    ¬ SameComponents reg (callImplicitComposite reg [countComp, warm1]) (callImplicitComposite reg [warm1, countComp]) := by
  intro h
  have h := h 0 0 state state 0 (SameStates.refl state_proper)
  have h1 : (Exc.test (callImplicitComposite reg [countComp, warm1] 0 state 0).2 fun r => (r.1.get? "T").any fun t =>
      decide (t.dims = ["x", "z", "y"] ∧ t.arr.shape = [2, 3, 2] ∧ t.attrs = [("units", "K s^-1")] ∧ t.arr.get [0, 0, 0] = 0)) =
      true := by decide +kernel
  have h2 : (Exc.test (callImplicitComposite reg [warm1, countComp] 0 state 0).2 fun r => (r.1.get? "T").any fun t =>
      decide (t.dims = ["x", "z", "y"] ∧ t.attrs = [("units", "K s^-1")] ∧ t.arr.get [0, 0, 0] = 1)) = true := by
    decide +kernel
  obtain ⟨r, e1, h1⟩ := Exc.test_ok h1
  obtain ⟨r', e2, h2⟩ := Exc.test_ok h2
  rw [e1, e2] at h
  have hT := h.1 "T"
  revert h1 h2 hT
  cases Dict.get? r.1 "T" with
  | none => intro h1; cases h1
  | some t =>
    cases Dict.get? r'.1 "T" with
    | none => intro _ h2; cases h2
    | some t' =>
      intro h1 h2 hT
      simp only [Option.any_some, decide_eq_true_eq] at h1 h2
      cases hT with
      | some hT =>
        have hix : ∀ d ∈ t.dims, (fun _ => 0 : String → Nat) d < t.len d := by
          intro d hd
          have hd' : d ∈ ["x", "z", "y"] := h1.1 ▸ hd
          unfold DataArray.len DataArray.named
          rw [h1.1, h1.2.1]
          clear hd
          revert d
          decide
        have hv : t.at' (fun _ => 0) = 0 := by
          unfold DataArray.at'
          rw [h1.1]
          exact h1.2.2.2
        have hv' : t'.at' (fun _ => 0) = 1 := by
          unfold DataArray.at'
          rw [h2.1]
          exact h2.2.2
        rcases hT.rate with ⟨-, g⟩ | ⟨own, own', u, u', g1, g2, g3, g4, -, g⟩
        · have := g _ hix
          rw [hv, hv'] at this
          exact absurd this (by decide)
        · have := g _ hix
          rw [h1.2.2.1] at g1
          rw [h2.2.1] at g2
          cases g1
          cases g2
          cases g3
          cases g4
          rw [hv, hv'] at this
          exact absurd this (by decide +kernel)

end Verif

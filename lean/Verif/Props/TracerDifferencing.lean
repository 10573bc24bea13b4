import Verif.Model.Nested
import Verif.Props.TimeDifferencing
import Verif.Props.TracerComponents
import Verif.Props.Combine
/-!
# C75: TimeDifferencingWrapper around a Stepper
-/

namespace Verif

/-- A Stepper returns every declared output, and every name once. -/
theorem callStepper_new {σ : Type} {R : Registry} {g : Tracers} {c : Class} {i : Inst}
    {arrayCall : σ → RawState → Int → σ × Except Err (Dict NDArray × Dict NDArray)} {s : σ}
    {state : State} {dt : Int} {diag new : Dict DataArray} (hn : c.outProps.keys.Nodup)
    (h : (callStepper R g c i arrayCall s state dt).2 = .ok (diag, new)) :
    new.keys.Nodup ∧ ∀ n ∈ c.outProps.keys, n ∈ new.keys := by
  unfold callStepper at h
  cases hprep : prepare R g c i state with
  | error e => rw [hprep] at h; cases h
  | ok raw =>
    rw [hprep] at h
    dsimp only at h
    obtain ⟨⟨rawD, rawN⟩, -, hfin⟩ := Exc.bind_ok_iff.1 h
    unfold finishStepper at hfin
    obtain ⟨tr, htr, hfin⟩ := Exc.bind_ok_iff.1 hfin
    obtain ⟨_, _, hfin⟩ := Exc.bind_ok_iff.1 hfin
    obtain ⟨_, _, hfin⟩ := Exc.bind_ok_iff.1 hfin
    obtain ⟨_, _, hfin⟩ := Exc.bind_ok_iff.1 hfin
    obtain ⟨dd, _, hfin⟩ := Exc.bind_ok_iff.1 hfin
    obtain ⟨td, htd, hfin⟩ := Exc.bind_ok_iff.1 hfin
    injection hfin with hfin
    injection hfin with _ hout
    subst hout
    refine ⟨Dict.nodup_keys_update ?_ _, fun n hm => (Dict.mem_keys_update _ _ _).2 (.inr ((restore_keys hn htd n).2 ⟨hm, by simp⟩))⟩
    unfold takeTracers at htr
    cases hpk : i.packer with
    | none => rw [hpk] at htr; cases htr; exact List.nodup_nil
    | some p =>
      rw [hpk] at htr
      dsimp only at htr
      obtain ⟨t', ht', htr⟩ := Exc.bind_ok_iff.1 htr
      obtain ⟨tout, htout, htr⟩ := Exc.bind_ok_iff.1 htr
      cases htr
      unfold Packer.unpack at htout
      obtain ⟨_, _, htout⟩ := Exc.bind_ok_iff.1 htout
      obtain ⟨_, _, htout⟩ := Exc.bind_ok_iff.1 htout
      exact restore_nodup htout

theorem stepperState_ok {σ : Type}
    {f : σ → State → Int → σ × Except Err (Dict DataArray × Dict DataArray)} {s s' : σ} {state : State} {dt : Int}
    {diag : Dict DataArray} {N : State} (h : stepperState f s state dt = (s', .ok (diag, N))) :
    ∃ new, f s state dt = (s', .ok (diag, new)) ∧ N = Dict.mapVal Val.da new := by
  unfold stepperState at h
  injection h with h1 h2
  obtain ⟨⟨d, new⟩, hr, h2⟩ := Exc.bind_ok_iff.1 h2
  injection h2 with h2
  injection h2 with h3 h4
  subst h3
  exact ⟨new, Prod.ext h1 hr, h4.symm⟩

/-- **C75, what holds.**  A forward Euler step with TimeDifferencingWrapper(stepper), for
a Stepper that declares its outputs: every declared output gets the value the Stepper
gives it, whether or not it uses tracers, and everything else, tracers included, keeps
the value it has in the state. -/
theorem time_differencing_stepper_partial {σ : Type} {R : Registry} (hF : R.Faithful) (hrate : R.RateUnits)
    {g : Tracers} {c : Class} {i : Inst}
    {arrayCall : σ → RawState → Int → σ × Except Err (Dict NDArray × Dict NDArray)} {s s' : σ}
    {state : State} {dt : Int} (hdt : dt ≠ 0) {ab : AB} {diag : Dict DataArray} {new : State}
    (hn : c.outProps.keys.Nodup)
    (h : AB.call R (differencingCall R c.outProps (stepperState (callStepper R g c i arrayCall)))
      { order := 1 } s state dt = (ab, s', .ok (diag, new))) :
    ∃ own, callStepper R g c i arrayCall s state dt = (s', .ok (diag, own)) ∧
      (∀ n ∈ c.outProps.keys, ∃ a b u0 u, own.get? n = some a ∧ Dict.get? new n = some (.da b) ∧
          b.attrs.get? "units" = some u0 ∧ a.attrs.get? "units" = some u ∧
          ∀ ix, SamePhysical R u0 (b.at' ix) u (a.at' ix)) ∧
      ∀ n, n ∉ c.outProps.keys → Dict.get? new n = Dict.get? state n := by
  obtain ⟨N, hN, h1, h2⟩ := time_differencing_euler hF hrate hdt (by
    rintro ⟨d, N⟩ hr
    obtain ⟨own, ho, rfl⟩ := stepperState_ok (f := callStepper R g c i arrayCall)
      (s' := (stepperState (callStepper R g c i arrayCall) s state dt).1) (Prod.ext rfl hr)
    rw [Dict.keys_mapVal]
    exact (callStepper_new hn (congrArg Prod.snd ho)).1) h
  obtain ⟨own, ho, rfl⟩ := stepperState_ok hN
  refine ⟨own, ho, ?_, ?_⟩
  · intro n hm
    obtain ⟨a, ha⟩ := Dict.get?_of_mem_keys ((callStepper_new hn (congrArg Prod.snd ho)).2 n hm)
    obtain ⟨b, u0, u, g1, g2, g3, g4⟩ := h1 n a (by rw [Dict.get?_mapVal, ha]; rfl) hm
    exact ⟨a, b, u0, u, ha, g1, g2, g3, g4⟩
  · intro n hm
    exact h2 n (fun hc => absurd hc hm)

/-- **C75, counterexample.**  The tracers of the Stepper: it returns a new value for
each, its slice of the tracer array, and the Euler step leaves all of them as they are
in the state, whatever the Stepper returns. -/
theorem time_differencing_loses_tracers {σ : Type} {R : Registry} (hF : R.Faithful) (hrate : R.RateUnits)
    (ops : List TOp) {c : Class} {i : Inst} {p : Packer}
    {arrayCall : σ → RawState → Int → σ × Except Err (Dict NDArray × Dict NDArray)} {s s' : σ}
    {state : State} {dt : Int} (hdt : dt ≠ 0) {ab : AB} {diag : Dict DataArray} {new : State}
    (hwf : state.WF) (hsf : state.StarFree)
    (hpk : i.packer = some p) (hn : c.outProps.keys.Nodup)
    (hdims : p.dims.count "tracer" = 1) (hstar : p.dims.count "*" ≤ 1)
    (hp : (p.prepend.map (·.1)).Nodup) (hne : tracerNames (runOps R {} ops) p ≠ [])
    (h : AB.call R (differencingCall R c.outProps (stepperState (callStepper R (runOps R {} ops) c i arrayCall)))
      { order := 1 } s state dt = (ab, s', .ok (diag, new))) :
    ∃ raw rawD rawN t t' L own,
      callStepper R (runOps R {} ops) c i arrayCall s state dt = (s', .ok (diag, own)) ∧
      arrayCall s raw dt = (s', .ok (rawD, rawN)) ∧
      raw.arrays.get? "tracers" = some t ∧ rawN.get? "tracers" = some t' ∧
      ∀ j name, (tracerNames (runOps R {} ops) p)[j]? = some name → name ∉ c.outProps.keys →
        t'.shape = t.shape → ∃ da, own.get? name = some da ∧
          (∀ ix : String → Nat, InB (da.dims.map ix) da.arr.shape →
            da.at' ix = t'.get (tracerIndex p.dims
              (wildSpec (requested state (tracerReq (runOps R {} ops) p))) L ix j)) ∧
          Dict.get? new name = Dict.get? state name := by
  obtain ⟨own, ho, -, hk⟩ := time_differencing_stepper_partial hF hrate hdt hn h
  obtain ⟨raw, rawD, rawN, t, t', L, h1, h2, h3, -, h5⟩ :=
    stepper_call_tracers R hF ops c i p arrayCall s s' state dt diag own hwf hsf hpk hn hdims hstar hp hne ho
  refine ⟨raw, rawD, rawN, t, t', L, own, ho, h1, h2, h3, ?_⟩
  intro j name hj hno hsh
  obtain ⟨_, _, _, -, -, -, -, h6⟩ := h5 j name hj
  obtain ⟨da, g1, -, -, -, g2⟩ := h6 hsh hno
  exact ⟨da, g1, g2, hk name hno⟩

/-- **C75, counterexample.**  The inputs of a composite: those of the wrapper lack the
tracers the wrapped Stepper needs. -/
theorem time_differencing_inputs {R : Registry} {o : SetOrder} {g : Tracers} {c c' : Class}
    (h : differencingClass c = .ok c') {others : List Class} {inP : PropDict}
    (hc : combineInputs R o g (c' :: others) = .ok inP) (n : String) (hn : n ∉ c.inProps.keys)
    (hothers : ∀ d ∈ others, n ∉ d.inProps.keys ∧ d.usesTracers = false) :
    n ∉ inP.keys ∧
    ∀ inP', combineInputs R o g (c :: others) = .ok inP' →
      (n ∈ inP'.keys ↔ c.usesTracers = true ∧ (n ∈ g.units.keys ∨ n ∈ Dict.keys c.prepend)) := by
  unfold differencingClass at h
  obtain ⟨tp, -, h⟩ := Exc.bind_ok_iff.1 h
  injection h with h
  subst h
  have key : ∀ d ∈ others, ¬ (n ∈ d.inProps.keys ∨
      (d.usesTracers = true ∧ (n ∈ g.units.keys ∨ n ∈ Dict.keys d.prepend))) := by
    rintro d hd (hm | ⟨hm, -⟩)
    · exact (hothers d hd).1 hm
    · rw [(hothers d hd).2] at hm; cases hm
  refine ⟨?_, ?_⟩
  · rw [combined_inputs_cover R o g _ _ hc]
    rintro ⟨d, hd, hm⟩
    rcases List.mem_cons.1 hd with rfl | hd
    · rcases hm with hm | ⟨hm, -⟩
      · exact hn hm
      · cases hm
    · exact key d hd hm
  · intro inP' h'
    rw [combined_inputs_cover R o g _ _ h']
    constructor
    · rintro ⟨d, hd, hm⟩
      rcases List.mem_cons.1 hd with rfl | hd
      · rcases hm with hm | hm
        · exact absurd hm hn
        · exact hm
      · exact absurd hm (key d hd)
    · intro hm
      exact ⟨c, List.mem_cons_self, .inr hm⟩

/-- **C75, what the wrapper declares.**  Tendencies are declared for exactly the quantities
it returns one of, in the units it returns them in and with the dims of the Stepper's
outputs; the diagnostics it declares are those it returns, and are the Stepper's. -/
theorem time_differencing_declares {σ : Type} {R : Registry} (hF : R.Faithful) (hrate : R.RateUnits)
    {g0 g1 g : Tracers} {c0 c c' : Class} {tid : Bool} {name : String} {i : Inst}
    {arrayCall : σ → RawState → Int → σ × Except Err (Dict NDArray × Dict NDArray)} {s s' : σ}
    {state : State} {dt : Int} (hdt : dt ≠ 0) {t diag : Dict DataArray} (hkind : c0.kind = .stepper)
    (hout : c0.outProps.keys.Nodup) (hdiag : c0.diagProps.keys.Nodup)
    (hmade : construct R g0 c0 tid name = (g1, c, .ok i)) (hc : differencingClass c = .ok c')
    (h : differencingCall R c.outProps (stepperState (callStepper R g c i arrayCall)) s state dt =
      (s', .ok (t, diag))) :
    c'.kind = .implicit ∧
    (∀ n, n ∈ t.keys ↔ n ∈ c'.outProps.keys) ∧
    (∀ n v, t.get? n = some v → ∃ p q u uv, c.outProps.get? n = some p ∧ c'.outProps.get? n = some q ∧
      q.dims = p.dims ∧ q.units = some u ∧ v.attrs.get? "units" = some uv ∧ SameUnit R uv u) ∧
    (∀ n, n ∈ diag.keys ↔ n ∈ c'.diagProps.keys) ∧
    ∀ n, c'.diagProps.get? n = c.diagProps.get? n := by
  unfold differencingClass at hc
  obtain ⟨tp, htp, hc⟩ := Exc.bind_ok_iff.1 hc
  injection hc with hc
  subst hc
  dsimp only
  obtain ⟨-, hname, htid, hf, ht, -⟩ := construct_ok hmade
  have hco : c.outProps = c0.outProps := by
    cases tid with
    | false => rw [(hf rfl).1]
    | true => rw [(insertProps_stepper hkind hout (ht rfl)).1]
  have hco' : c.outProps.keys.Nodup := by rw [hco]; exact hout
  obtain ⟨k1, k2⟩ := time_differencing_properties htp
  obtain ⟨N, hN, h1, h2⟩ := time_differencing_tendencies hF hrate hdt (by
    rintro ⟨d, N⟩ hr
    obtain ⟨own, ho, rfl⟩ := stepperState_ok (f := callStepper R g c i arrayCall)
      (s' := (stepperState (callStepper R g c i arrayCall) s state dt).1) (Prod.ext rfl hr)
    rw [Dict.keys_mapVal]
    exact (callStepper_new hco' (congrArg Prod.snd ho)).1) h
  obtain ⟨own, ho, rfl⟩ := stepperState_ok hN
  have hnew := callStepper_new hco' (congrArg Prod.snd ho)
  have hkeys := stepper_call_keys R g0 g1 g c0 c tid name i arrayCall s s' state dt diag own hkind hout hdiag hmade ho
  refine ⟨rfl, ?_, ?_, ?_, fun n => rfl⟩
  · intro n
    rw [h1, k1]
    constructor
    · exact fun h => h.1
    · intro hn
      obtain ⟨a, ha⟩ := Dict.get?_of_mem_keys (hnew.2 n hn)
      exact ⟨hn, a, by rw [Dict.get?_mapVal, ha]; rfl⟩
  · intro n v hv
    obtain ⟨hn, a, ha⟩ := (h1 n).1 (Dict.mem_keys_of_get? hv)
    obtain ⟨v', _, _, _, p, d, uv, _, _, _, e1, _, _, _, e2, e3, e4, e5, _⟩ := h2 n a ha hn
    rw [hv] at e1; cases e1
    obtain ⟨u, q, f1, f2, f3, f4, _⟩ := k2 n p e2
    rw [e3] at f1; cases f1
    exact ⟨p, q, _, uv, e2, f2, f4, f3, e4, e5⟩
  · intro n
    rw [hkeys.2]
    cases tid with
    | false => rw [(hf rfl).1]; simp
    | true =>
      rw [(insertProps_stepper hkind hout (ht rfl)).1]
      simp only [Dict.mem_keys_update, keys_inserted, List.mem_map, true_and]
      constructor
      · rintro (h | ⟨x, hx, rfl⟩)
        · exact .inl h
        · exact .inr ⟨x, hx, rfl⟩
      · rintro (h | ⟨x, hx, rfl⟩)
        · exact .inl h
        · exact .inr ⟨x, hx, rfl⟩

/-! ## Example -/

namespace Demo

/-- A Stepper that doubles its output `T` and its tracers, of which there is `p`. -/
def tdTracerCls : Class where
  kind := .stepper
  inProps := [("T", { dims := some ["z", "*"], units := some "K" })]
  outProps := [("T", { units := some "K" })]
  diagProps := []
  usesTracers := true
  tracerDims := some ["z", "tracer"]

def tdTracerInst : Inst := ⟨"me", false, [], some ⟨[], ["z", "tracer"], ["T"]⟩⟩

def tdTracerAc : Nat → RawState → Int → Nat × Except Err (Dict NDArray × Dict NDArray) := fun n raw _ =>
  (n + 1, raw.arrays.get "T" >>= fun t => raw.arrays.get "tracers" >>= fun q =>
    .ok ([], [("T", t.map (2 * ·)), ("tracers", q.map (2 * ·))]))

def tdTracers : Tracers := runOps reg {} [.register "p" "m"]

def tdTracerState : State := state ++ [("p", .da { prof with attrs := [("units", "m")] })]

end Demo

open Demo in
/-- The Stepper doubles `p`, the Euler step with the wrapper doubles `T` and leaves `p`;
the Stepper's inputs include `p`, the wrapper's do not. -/
example : Exc.test (callStepper reg tdTracers tdTracerCls tdTracerInst tdTracerAc 0 tdTracerState 1000000).2
      (fun r => decide ((r.2.get? "p").map (fun a => a.arr.get [1]) = some 4)) = true ∧
    Exc.test (AB.call reg (differencingCall reg tdTracerCls.outProps
        (stepperState (callStepper reg tdTracers tdTracerCls tdTracerInst tdTracerAc))) { order := 1 } 0
        tdTracerState 1000000).2.2
      (fun r => (match Dict.get? r.2 "p" with | some (.da a) => a.arr.get [1] == 2 | _ => false) &&
        (match Dict.get? r.2 "T", Dict.get? tdTracerState "T" with
        | some (.da a), some (.da b) => a.at' (fun _ => 0) == 2 * b.at' (fun _ => 0)
        | _, _ => false)) = true ∧
    Exc.test (differencingClass tdTracerCls >>= fun c' =>
        combineInputs reg Demo.order tdTracers [c'] >>= fun a =>
        combineInputs reg Demo.order tdTracers [tdTracerCls] >>= fun b => .ok (a, b))
      (fun r => decide ("p" ∉ Dict.keys r.1 ∧ "p" ∈ Dict.keys r.2)) = true := by
  refine ⟨?_, ?_, ?_⟩ <;> decide +kernel

open Demo in
/-- Non-vacuity of `time_differencing_declares`: a Stepper with two outputs and tendencies
in its diagnostics. -/
example : Exc.test (differencingClass (made true stepCls).1) (fun c' =>
    Exc.test (differencingCall reg (made true stepCls).1.outProps
      (stepperState (callStepper reg {} (made true stepCls).1 (made true stepCls).2 stepAc)) 0
      (state ++ [("h", .da { prof with attrs := [("units", "m")] })]) 1000000).2 fun r =>
      decide (r.1.keys = c'.outProps.keys ∧ r.1.keys = ["T", "h"] ∧ r.2.keys = c'.diagProps.keys)) = true := by
  decide +kernel

end Verif

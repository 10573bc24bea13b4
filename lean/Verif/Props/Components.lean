import Verif.Lemmas.Components
import Verif.Spec.Demo
import Verif.Props.RestoreArrays
/-!
# C13, C14, C19: calling and constructing components
-/

namespace Verif

namespace Demo

/-- A tendency class with an aliased input/tendency and a diagnostic. -/
def cls : Class where
  kind := .tendency
  inProps := [("T", { dims := some ["z", "*"], units := some "K", aliasName := some "temp" }),
              ("h", { dims := some ["z"], units := some "m" })]
  outProps := [("T", { units := some "K s^-1" })]
  diagProps := [("h2", { dims := some ["z"], units := some "m" })]

/-- Returns the tendency under the alias and counts its calls. -/
def ac : Nat → RawState → Nat × Except Err (Dict NDArray × Dict NDArray) := fun n raw =>
  (n + 1, raw.arrays.get "temp" >>= fun t => raw.arrays.get "h" >>= fun h =>
    .ok ([("temp", t.map (2 * ·))], [("h2", h)]))

/-- The class and instance after creation with or without tendencies in diagnostics. -/
def made (tid : Bool) (c : Class := cls) : Class × Inst :=
  match construct reg {} c tid "me" with
  | (_, c', .ok i) => (c', i)
  | _ => (c, ⟨"", false, [], none⟩)

/-- A Stepper class with one output that is not an input. -/
def stepCls : Class where
  kind := .stepper
  inProps := [("T", { dims := some ["z", "*"], units := some "K" })]
  outProps := [("T", { units := some "K" }), ("h", { dims := some ["z"], units := some "km" })]
  diagProps := [("d", { dims := some ["z"], units := some "m" })]

def stepAc : Nat → RawState → Int → Nat × Except Err (Dict NDArray × Dict NDArray) := fun n raw _ =>
  (n + 1, raw.arrays.get "T" >>= fun t =>
    .ok ([("d", NDArray.zeros [3])], [("T", t.map (2 * ·)), ("h", NDArray.zeros [3])]))

end Demo

/-! ## C13 -/

/-- **C13, tendency components, keys.**  A successful call of a TendencyComponent
or ImplicitTendencyComponent returns exactly the declared tendencies plus the
tracers, and exactly the declared diagnostics plus, with
`tendencies_in_diagnostics`, one for each returned tendency.  `c0` is the class
as declared, `c` as left by the constructor; the tracer globals `g` at the time
of the call are arbitrary. -/
theorem tendency_call_keys {σ : Type} (R : Registry) (g0 g1 g : Tracers) (c0 c : Class) (tid : Bool)
    (name : String) (i : Inst)
    (arrayCall : σ → RawState → σ × Except Err (Dict NDArray × Dict NDArray)) (s s' : σ)
    (state : State) (tend diag : Dict DataArray)
    (hkind : c0.kind = .tendency ∨ c0.kind = .implicit)
    (hout : c0.outProps.keys.Nodup) (hdiag : c0.diagProps.keys.Nodup)
    (hmade : construct R g0 c0 tid name = (g1, c, .ok i))
    (hcall : callTendency R g c i arrayCall s state = (s', .ok (tend, diag))) :
    (∀ k, k ∈ tend.keys ↔ k ∈ c0.outProps.keys ∨ IsTracer g c0 k) ∧
    (∀ k, k ∈ diag.keys ↔ k ∈ c0.diagProps.keys ∨
      (tid = true ∧ ∃ x ∈ tend.keys, k = x ++ "_tendency_from_" ++ name)) := by
  obtain ⟨_, hname, htid, hf, ht, hp⟩ := construct_ok hmade
  unfold callTendency at hcall
  cases hprep : prepare R g c i state with
  | error e => rw [hprep] at hcall; simp at hcall
  | ok raw =>
    rw [hprep] at hcall
    simp only [Prod.mk.injEq] at hcall
    obtain ⟨_, hcall⟩ := hcall
    obtain ⟨r, _, hcall⟩ := Exc.bind_ok_iff.1 hcall
    unfold finishTendency at hcall
    obtain ⟨tr, htr, hcall⟩ := Exc.bind_ok_iff.1 hcall
    obtain ⟨_, _, hcall⟩ := Exc.bind_ok_iff.1 hcall
    obtain ⟨_, _, hcall⟩ := Exc.bind_ok_iff.1 hcall
    obtain ⟨t, hte, hcall⟩ := Exc.bind_ok_iff.1 hcall
    obtain ⟨d, hdi, hcall⟩ := Exc.bind_ok_iff.1 hcall
    simp only [Except.ok.injEq, Prod.mk.injEq] at hcall
    obtain ⟨e1, e2⟩ := hcall
    obtain ⟨k1, _, _⟩ := takeTracers_keys htr
    -- the class as changed by the constructor
    have hc : c.outProps = c0.outProps ∧ c.kind = c0.kind ∧ c.usesTracers = c0.usesTracers ∧
        c.prepend = c0.prepend ∧ c.diagProps.keys.Nodup ∧
        (∀ k, k ∈ c.diagProps.keys ∧ k ∉ i.ignored ↔ k ∈ c0.diagProps.keys ∧ k ∉ i.ignored) ∧
        (∀ k, k ∈ i.ignored ↔ tid = true ∧ ∃ n ∈ c0.outProps.keys, k = tendencyName n name) := by
      cases htd : tid with
      | false =>
        obtain ⟨rfl, hi⟩ := hf htd
        simp [hdiag, hi]
      | true =>
        obtain ⟨h1, h2, _⟩ := insertProps_tendency hkind (ht htd)
        subst h1
        refine ⟨rfl, rfl, rfl, rfl, Dict.nodup_keys_update hdiag _, ?_, ?_⟩
        · intro k
          simp only [Dict.mem_keys_update, keys_inserted, h2]
          tauto
        · intro k
          rw [h2, List.mem_map]
          simp only [true_and]
          constructor
          · rintro ⟨n, hn, rfl⟩; exact ⟨n, hn, rfl⟩
          · rintro ⟨n, hn, rfl⟩; exact ⟨n, hn, rfl⟩
    obtain ⟨c1, c2, c3, c4, c5, c6, c7⟩ := hc
    have htk : ∀ k, k ∈ tend.keys ↔ k ∈ c0.outProps.keys ∨ IsTracer g c0 k := by
      intro k
      rw [← e1, Dict.mem_keys_update, restore_keys (by rw [c1]; exact hout) hte k, k1 k, c1]
      simp only [List.not_mem_nil, not_false_eq_true, and_true]
      obtain ⟨p1, p2⟩ := makePacker_ok hp
      unfold IsTracer
      rw [← c3, ← c4]
      have hnd : c.kind ≠ .diagnostic := by
        rw [c2]; rcases hkind with h | h <;> rw [h] <;> decide
      cases hu : c.usesTracers with
      | false =>
        have := p1 (Or.inr hu)
        simp [this]
      | true =>
        obtain ⟨td, _, hpk⟩ := p2 hnd hu
        rw [hpk]
        simp only [Option.some.injEq, exists_eq_left', true_and]
        exact or_comm
    refine ⟨htk, ?_⟩
    intro k
    rw [← e2, htid]
    have hdk := restore_keys c5 hdi
    cases htd : tid with
    | false =>
      simp only [Bool.false_eq_true, if_false, false_and, or_false]
      rw [hdk, c6]
      have : k ∉ i.ignored := by rw [c7, htd]; simp
      simp [this]
    | true =>
      simp only [if_true, true_and]
      rw [insertTendencies_keys, hdk, c6, e1, hname]
      show _ ↔ _ ∨ ∃ x ∈ tend.keys, k = tendencyName x name
      constructor
      · rintro (h | h)
        · exact Or.inl h.1
        · exact Or.inr h
      · rintro (h | h)
        · by_cases hi : k ∈ i.ignored
          · right
            obtain ⟨_, n, hn, e⟩ := (c7 k).1 hi
            exact ⟨n, (htk n).2 (Or.inl hn), e⟩
          · exact Or.inl ⟨h, hi⟩
        · exact Or.inr h

/-- Non-vacuity: both constructions and calls of the demo class succeed. -/
example : Exc.test (callTendency Demo.reg {} (Demo.made true).1 (Demo.made true).2 Demo.ac 0 Demo.state).2
    (fun r => decide (Dict.keys r.1 = ["T"] ∧ Dict.keys r.2 = ["h2", "T_tendency_from_me"])) = true := by
  decide +kernel

/-- **C13, tendency components, errors.**  Once `array_call` returned (and any
tracer array was unpacked), leaving out a declared tendency or diagnostic makes
the call raise ComponentMissingOutputError and returning an undeclared one makes
it raise ComponentExtraOutputError (if both happen, one of the two), and these
errors are raised in no other case.  With `tendencies_in_diagnostics` the
inserted diagnostics (`i.ignored`) need not be returned. -/
theorem tendency_call_errors {σ : Type} (R : Registry) (g : Tracers) (c : Class) (i : Inst)
    (arrayCall : σ → RawState → σ × Except Err (Dict NDArray × Dict NDArray)) (s : σ)
    (state : State) (raw : RawState) (rawT rawD rawT' : Dict NDArray) (tr : Dict DataArray)
    (hprep : prepare R g c i state = .ok raw)
    (hac : (arrayCall s raw).2 = .ok (rawT, rawD))
    (htr : takeTracers g i rawT state c.tendencyTimeUnit = .ok (tr, rawT')) :
    let res := (callTendency R g c i arrayCall s state).2
    let omitted := Omitted c.inProps c.outProps [] rawT' ∨ Omitted c.inProps c.diagProps i.ignored rawD
    let undeclared := Undeclared c.inProps c.outProps rawT' ∨ Undeclared c.inProps c.diagProps rawD
    (omitted → ¬ undeclared → res = .error .missingOutput) ∧
    (undeclared → ¬ omitted → res = .error .extraOutput) ∧
    (omitted ∨ undeclared → res = .error .missingOutput ∨ res = .error .extraOutput) ∧
    (res = .error .missingOutput → omitted) ∧ (res = .error .extraOutput → undeclared) := by
  dsimp only
  unfold callTendency
  rw [hprep]
  simp only [hac, Exc.ok_bind]
  unfold finishTendency
  rw [htr]
  simp only [Exc.ok_bind]
  obtain ⟨h1, h2, h3, h4, h5⟩ := checks_order c.inProps c.outProps c.diagProps [] i.ignored rawT' rawD
    (restoreDataArrays rawT' c.outProps state c.inProps [] false >>= fun tend =>
      restoreDataArrays rawD c.diagProps state c.inProps i.ignored false >>= fun diag =>
      let out := tr.update tend
      .ok (out, if i.tid then insertTendencies i.name out diag else diag))
    (Quiet.bind (quiet_restore _ _ _ _ _ _) fun _ => Quiet.bind (quiet_restore _ _ _ _ _ _) fun _ => Quiet.ok _)
  refine ⟨fun ho hu => h1 ho (fun hc => hu (Or.inl hc)),
    fun hu ho => h2 hu (fun hc => ho (Or.inl hc)) (fun hc => ho (Or.inr hc)), ?_, h4, h5⟩
  rintro ((h | h) | (h | h))
  · exact h3 (Or.inl h)
  · exact h3 (Or.inr (Or.inl h))
  · exact h3 (Or.inr (Or.inr (Or.inl h)))
  · exact h3 (Or.inr (Or.inr (Or.inr h)))

/-- Non-vacuity: an `array_call` that forgets the diagnostic, and one that
returns an undeclared one. -/
example : (Exc.failsWith (callTendency Demo.reg {} Demo.cls (Demo.made false).2
      (fun n raw => ((Demo.ac n raw).1, (Demo.ac n raw).2 >>= fun r => .ok (r.1, []))) 0 Demo.state).2
      .missingOutput &&
    Exc.failsWith (callTendency Demo.reg {} Demo.cls (Demo.made false).2
      (fun n raw => ((Demo.ac n raw).1, (Demo.ac n raw).2 >>= fun r => .ok (r.1, r.2.set "x" (NDArray.zeros []))))
      0 Demo.state).2 .extraOutput) = true := by decide +kernel

/-- **C13, Steppers, keys.**  A successful call returns exactly the declared
outputs plus the tracers, and exactly the declared diagnostics plus, with
`tendencies_in_diagnostics`, one for each declared output. -/
theorem stepper_call_keys {σ : Type} (R : Registry) (g0 g1 g : Tracers) (c0 c : Class) (tid : Bool)
    (name : String) (i : Inst)
    (arrayCall : σ → RawState → Int → σ × Except Err (Dict NDArray × Dict NDArray)) (s s' : σ)
    (state : State) (dt : Int) (diag new : Dict DataArray)
    (hkind : c0.kind = .stepper)
    (hout : c0.outProps.keys.Nodup) (hdiag : c0.diagProps.keys.Nodup)
    (hmade : construct R g0 c0 tid name = (g1, c, .ok i))
    (hcall : callStepper R g c i arrayCall s state dt = (s', .ok (diag, new))) :
    (∀ k, k ∈ new.keys ↔ k ∈ c0.outProps.keys ∨ IsTracer g c0 k) ∧
    (∀ k, k ∈ diag.keys ↔ k ∈ c0.diagProps.keys ∨
      (tid = true ∧ ∃ x ∈ c0.outProps.keys, k = x ++ "_tendency_from_" ++ name)) := by
  obtain ⟨_, hname, htid, hf, ht, hp⟩ := construct_ok hmade
  unfold callStepper at hcall
  cases hprep : prepare R g c i state with
  | error e => rw [hprep] at hcall; simp at hcall
  | ok raw =>
    rw [hprep] at hcall
    simp only [Prod.mk.injEq] at hcall
    obtain ⟨_, hcall⟩ := hcall
    obtain ⟨r, _, hcall⟩ := Exc.bind_ok_iff.1 hcall
    unfold finishStepper at hcall
    obtain ⟨tr, htr, hcall⟩ := Exc.bind_ok_iff.1 hcall
    obtain ⟨_, _, hcall⟩ := Exc.bind_ok_iff.1 hcall
    obtain ⟨_, _, hcall⟩ := Exc.bind_ok_iff.1 hcall
    obtain ⟨_, _, hcall⟩ := Exc.bind_ok_iff.1 hcall
    obtain ⟨d, hdi, hcall⟩ := Exc.bind_ok_iff.1 hcall
    obtain ⟨t, hte, hcall⟩ := Exc.bind_ok_iff.1 hcall
    simp only [Except.ok.injEq, Prod.mk.injEq] at hcall
    obtain ⟨e2, e1⟩ := hcall
    obtain ⟨k1, _, _⟩ := takeTracers_keys htr
    have hc : c.outProps = c0.outProps ∧ c.kind = c0.kind ∧ c.usesTracers = c0.usesTracers ∧
        c.prepend = c0.prepend ∧ c.diagProps.keys.Nodup ∧
        (∀ k, k ∈ c.diagProps.keys ↔ k ∈ c0.diagProps.keys ∨
          (tid = true ∧ ∃ n ∈ c0.outProps.keys, k = tendencyName n name)) := by
      cases htd : tid with
      | false => obtain ⟨rfl, hi⟩ := hf htd; simp [hdiag]
      | true =>
        obtain ⟨h1, h2, _⟩ := insertProps_stepper hkind hout (ht htd)
        subst h1
        refine ⟨rfl, rfl, rfl, rfl, Dict.nodup_keys_update hdiag _, ?_⟩
        intro k
        simp only [Dict.mem_keys_update, keys_inserted, List.mem_map, true_and]
        constructor
        · rintro (h | ⟨n, hn, rfl⟩)
          · exact Or.inl h
          · exact Or.inr ⟨n, hn, rfl⟩
        · rintro (h | ⟨n, hn, rfl⟩)
          · exact Or.inl h
          · exact Or.inr ⟨n, hn, rfl⟩
    obtain ⟨c1, c2, c3, c4, c5, c6⟩ := hc
    refine ⟨?_, ?_⟩
    · intro k
      rw [← e1, Dict.mem_keys_update, restore_keys (by rw [c1]; exact hout) hte k, k1 k, c1]
      simp only [List.not_mem_nil, not_false_eq_true, and_true]
      obtain ⟨p1, p2⟩ := makePacker_ok hp
      unfold IsTracer
      rw [← c3, ← c4]
      have hnd : c.kind ≠ .diagnostic := by rw [c2, hkind]; decide
      cases hu : c.usesTracers with
      | false =>
        have := p1 (Or.inr hu)
        simp [this]
      | true =>
        obtain ⟨td, _, hpk⟩ := p2 hnd hu
        rw [hpk]
        simp only [Option.some.injEq, exists_eq_left', true_and]
        exact or_comm
    · intro k
      rw [← e2, restore_keys c5 hdi, c6]
      simp [tendencyName]

/-- Non-vacuity: the Stepper of the demo, one of whose outputs is not an input. -/
example : Exc.test (callStepper Demo.reg {} (Demo.made true Demo.stepCls).1 (Demo.made true Demo.stepCls).2
      Demo.stepAc 0 Demo.state 1000000).2
    (fun r => decide (Dict.keys r.2 = ["T", "h"] ∧
      Dict.keys r.1 = ["d", "T_tendency_from_me", "h_tendency_from_me"])) = true := by
  decide +kernel

/-- **C13, Steppers, errors.** -/
theorem stepper_call_errors {σ : Type} (R : Registry) (g : Tracers) (c : Class) (i : Inst)
    (arrayCall : σ → RawState → Int → σ × Except Err (Dict NDArray × Dict NDArray)) (s : σ)
    (state : State) (dt : Int) (raw : RawState) (rawD rawN rawN' : Dict NDArray) (tr : Dict DataArray)
    (hprep : prepare R g c i state = .ok raw)
    (hac : (arrayCall s raw dt).2 = .ok (rawD, rawN))
    (htr : takeTracers g i rawN state "" = .ok (tr, rawN')) :
    let res := (callStepper R g c i arrayCall s state dt).2
    let omitted := Omitted c.inProps c.diagProps i.ignored rawD ∨ Omitted c.inProps c.outProps [] rawN'
    let undeclared := Undeclared c.inProps c.diagProps rawD ∨ Undeclared c.inProps c.outProps rawN'
    (omitted → ¬ undeclared → res = .error .missingOutput) ∧
    (undeclared → ¬ omitted → res = .error .extraOutput) ∧
    (omitted ∨ undeclared → res = .error .missingOutput ∨ res = .error .extraOutput) ∧
    (res = .error .missingOutput → omitted) ∧ (res = .error .extraOutput → undeclared) := by
  dsimp only
  unfold callStepper
  rw [hprep]
  simp only [hac, Exc.ok_bind]
  unfold finishStepper
  rw [htr]
  simp only [Exc.ok_bind]
  obtain ⟨h1, h2, h3, h4, h5⟩ := checks_order c.inProps c.diagProps c.outProps i.ignored [] rawD rawN'
    ((if i.tid = true then insertDifferences i.name raw.arrays rawN' dt c.outProps.keys rawD else .ok rawD)
      >>= fun rawD' => restoreDataArrays rawD' c.diagProps state c.inProps [] false >>= fun diag =>
      restoreDataArrays rawN' c.outProps state c.inProps [] false >>= fun new =>
      .ok (diag, tr.update new))
    (Quiet.bind (by split; exact quiet_insertDifferences _ _ _ _ _ _; exact Quiet.ok _) fun _ =>
      Quiet.bind (quiet_restore _ _ _ _ _ _) fun _ => Quiet.bind (quiet_restore _ _ _ _ _ _) fun _ => Quiet.ok _)
  refine ⟨fun ho hu => h1 ho (fun hc => hu (Or.inl hc)),
    fun hu ho => h2 hu (fun hc => ho (Or.inl hc)) (fun hc => ho (Or.inr hc)), ?_, h4, h5⟩
  rintro ((h | h) | (h | h))
  · exact h3 (Or.inl h)
  · exact h3 (Or.inr (Or.inl h))
  · exact h3 (Or.inr (Or.inr (Or.inl h)))
  · exact h3 (Or.inr (Or.inr (Or.inr h)))

/-- Non-vacuity: an output is omitted; an undeclared diagnostic is returned. -/
example : (Exc.failsWith (callStepper Demo.reg {} Demo.stepCls (Demo.made false Demo.stepCls).2
      (fun n raw dt => ((Demo.stepAc n raw dt).1, (Demo.stepAc n raw dt).2 >>= fun r => .ok (r.1, r.2.erase "h")))
      0 Demo.state 1000000).2 .missingOutput &&
    Exc.failsWith (callStepper Demo.reg {} Demo.stepCls (Demo.made false Demo.stepCls).2
      (fun n raw dt => ((Demo.stepAc n raw dt).1, (Demo.stepAc n raw dt).2 >>= fun r =>
        .ok (r.1.set "x" (NDArray.zeros []), r.2)))
      0 Demo.state 1000000).2 .extraOutput) = true := by decide +kernel

/-- **C13, DiagnosticComponents.**  A successful call returns exactly the declared
diagnostics; an omitted one raises ComponentMissingOutputError; otherwise an
undeclared one raises ComponentExtraOutputError. -/
theorem diagnostic_call_outputs {σ : Type} (R : Registry) (g0 g1 g : Tracers) (c0 c : Class)
    (name : String) (i : Inst) (arrayCall : σ → RawState → σ × Except Err (Dict NDArray)) (s : σ)
    (state : State) (hkind : c0.kind = .diagnostic) (hdiag : c0.diagProps.keys.Nodup)
    (hmade : construct R g0 c0 false name = (g1, c, .ok i)) :
    (∀ s' diag, callDiagnostic R g c i arrayCall s state = (s', .ok diag) →
      ∀ k, k ∈ diag.keys ↔ k ∈ c0.diagProps.keys) ∧
    (∀ raw rawD, prepare R g c i state = .ok raw → (arrayCall s raw).2 = .ok rawD →
      ((callDiagnostic R g c i arrayCall s state).2 = .error .missingOutput ↔
        Omitted c0.inProps c0.diagProps [] rawD) ∧
      ((callDiagnostic R g c i arrayCall s state).2 = .error .extraOutput ↔
        ¬ Omitted c0.inProps c0.diagProps [] rawD ∧ Undeclared c0.inProps c0.diagProps rawD)) := by
  obtain ⟨_, _, _, hf, _, _⟩ := construct_ok hmade
  obtain ⟨rfl, hi⟩ := hf rfl
  refine ⟨?_, ?_⟩
  · intro s' diag hcall k
    unfold callDiagnostic at hcall
    cases hprep : prepare R g c i state with
    | error e => rw [hprep] at hcall; simp at hcall
    | ok raw =>
      rw [hprep] at hcall
      simp only [Prod.mk.injEq] at hcall
      obtain ⟨r, _, hcall⟩ := Exc.bind_ok_iff.1 hcall.2
      unfold finishDiagnostic at hcall
      obtain ⟨_, _, hcall⟩ := Exc.bind_ok_iff.1 hcall
      rw [restore_keys hdiag hcall]; simp
  · intro raw rawD hprep hac
    unfold callDiagnostic
    rw [hprep]
    simp only [hac, Exc.ok_bind]
    unfold finishDiagnostic
    rw [hi]
    have hq := quiet_restore rawD c.diagProps state c.inProps [] false
    rcases checkRaw_cases c.inProps c.diagProps [] rawD with ⟨h, a1, a2⟩ | ⟨h, a1⟩ | ⟨h, a1, a2⟩ <;> rw [h]
    · simp only [Exc.ok_bind]
      refine ⟨⟨fun hr => absurd rfl (hq _ hr).1, by tauto⟩, ⟨fun hr => absurd rfl (hq _ hr).2, by tauto⟩⟩
    · simp only [Exc.error_bind, Except.error.injEq, reduceCtorEq]; tauto
    · simp only [Exc.error_bind, Except.error.injEq, reduceCtorEq]; tauto

/-- Non-vacuity: a DiagnosticComponent. -/
example : Exc.test (callDiagnostic Demo.reg {} { Demo.cls with kind := .diagnostic, outProps := [] }
    (Demo.made false { Demo.cls with kind := .diagnostic, outProps := [] }).2
    (fun n raw => ((Demo.ac n raw).1, (Demo.ac n raw).2 >>= fun r => .ok r.2)) 0 Demo.state).2
    (fun r => decide (Dict.keys r = ["h2"])) = true := by decide +kernel

/-- The checks accept a declared quantity returned under its full name although an
alias is declared, but restoring then looks for the alias: the call raises
KeyError rather than one of the two documented errors. -/
theorem full_name_despite_alias_keyError :
    Exc.failsWith (callTendency Demo.reg {} Demo.cls (Demo.made false).2
      (fun n raw => ((Demo.ac n raw).1, (Demo.ac n raw).2 >>= fun r =>
        .ok (r.1.map (fun kv => ("T", kv.2)), r.2))) 0 Demo.state).2 .keyError = true := by
  decide +kernel

/-! ## C14 -/

/-- **C14.**  If the state lacks an input, calling a component of any kind raises
InvalidStateError and `array_call` is not executed: whatever internal state it
would change is unchanged. -/
theorem array_call_not_run {σ : Type} (R : Registry) (g : Tracers) (c : Class) (i : Inst) (s : σ)
    (state : State) (hmiss : ∃ k ∈ c.inProps.keys, k ∉ Dict.keys state) :
    (∀ ac, callTendency R g c i ac s state = (s, .error .invalidState)) ∧
    (∀ ac dt, callStepper R g c i ac s state dt = (s, .error .invalidState)) ∧
    (∀ ac, callDiagnostic R g c i ac s state = (s, .error .invalidState)) := by
  have hp : prepare R g c i state = .error .invalidState := by
    unfold prepare checkInputs
    rw [if_neg]
    · rfl
    · intro h; obtain ⟨k, h1, h2⟩ := hmiss; exact h2 (h k h1)
  refine ⟨fun ac => ?_, fun ac dt => ?_, fun ac => ?_⟩
  · unfold callTendency; rw [hp]
  · unfold callStepper; rw [hp]
  · unfold callDiagnostic; rw [hp]

/-- Non-vacuity, and the counter of the demo component does count. -/
example : (∃ k ∈ Demo.cls.inProps.keys, k ∉ Dict.keys (Demo.state.erase "h")) ∧
    (callTendency Demo.reg {} Demo.cls (Demo.made false).2 Demo.ac 0 Demo.state).1 = 1 := by
  refine ⟨⟨"h", by decide, by decide⟩, by decide +kernel⟩

/-- **C14, conversely.**  Whatever `array_call` receives contains every declared
input, under its alias if it has one. -/
theorem array_call_gets_inputs (R : Registry) (g : Tracers) (c : Class) (i : Inst)
    (state : State) (raw : RawState) (h : prepare R g c i state = .ok raw) :
    ∀ kv ∈ c.inProps, outName kv ∈ raw.arrays.keys ∧ kv.1 ∈ Dict.keys state := by
  unfold prepare at h
  obtain ⟨_, h1, h⟩ := Exc.bind_ok_iff.1 h
  obtain ⟨raw0, h2, h⟩ := Exc.bind_ok_iff.1 h
  obtain ⟨raw1, h3, h⟩ := Exc.bind_ok_iff.1 h
  obtain ⟨t, h4, h⟩ := Exc.bind_ok_iff.1 h
  cases h
  intro kv hkv
  constructor
  · have hk : outName kv ∈ raw0.keys := by
      unfold getNumpyArrays at h2
      obtain ⟨wl, _, h2⟩ := Exc.bind_ok_iff.1 h2
      exact (rawInputs_keys h2).1 kv hkv
    cases hp : i.packer with
    | none => rw [hp] at h3; cases h3; exact hk
    | some p =>
      rw [hp] at h3
      obtain ⟨t, _, h3⟩ := Exc.bind_ok_iff.1 h3
      cases h3
      exact (Dict.mem_keys_set _ _ _ _).2 (Or.inr hk)
  · unfold checkInputs at h1
    split at h1
    · rename_i hc; exact hc _ (Dict.mem_keys_of_mem hkv)
    · cases h1

/-- Non-vacuity: `prepare` succeeds for the demo component. -/
example : Exc.test (prepare Demo.reg {} Demo.cls (Demo.made false).2 Demo.state)
    (fun r => decide (r.arrays.keys = ["temp", "h"])) = true := by decide +kernel

/-! ## C19 -/

/-- **C19.**  For every class whose unit strings are known to the registry,
construction succeeds exactly when the property dictionaries are valid in the
documented sense, and otherwise raises InvalidPropertyDictError, leaving the
class as it was.  All kinds; with `tendencies_in_diagnostics` for the tendency
components (see the next theorem for Steppers). -/
theorem construct_iff_valid (R : Registry) (g : Tracers) (c : Class) (tid : Bool) (name : String)
    (hkd : UnitsKnown R id c.inProps c.diagProps)
    (hko : c.kind ≠ .diagnostic → UnitsKnown R (outFactor c.kind) c.inProps c.outProps)
    (hnotr : c.usesTracers = false) (htid : tid = true → c.kind ≠ .stepper) :
    ((∃ g' c' i, construct R g c tid name = (g', c', .ok i)) ↔ ValidProps R c) ∧
    (¬ ValidProps R c → construct R g c tid name = (g, c, .error .invalidPropertyDict)) := by
  have key : (∃ g' c' i, construct R g c tid name = (g', c', .ok i)) ∧ ValidProps R c ∨
      construct R g c tid name = (g, c, .error .invalidPropertyDict) ∧ ¬ ValidProps R c := by
    rcases decides_runCheckers hkd hko with ⟨h, hv⟩ | ⟨h, hv⟩
    · left
      refine ⟨?_, hv⟩
      unfold construct
      rw [h]
      dsimp only
      have hins : ∃ a, (if tid = true then insertProps c name else (c, .ok [])).2 = .ok a := by
        cases tid with
        | false => exact ⟨[], rfl⟩
        | true =>
          simp only [if_true]
          unfold insertProps
          cases hk : c.kind with
          | stepper => exact absurd hk (htid rfl)
          | diagnostic => exact ⟨[], rfl⟩
          | tendency =>
            have he := effDims_of_described (hv.out (by rw [hk]; decide)) hv.inputs
            obtain ⟨r, hr⟩ := insertTendencyProps_isOk (inst := name) he c.diagProps []
            exact ⟨r.2, by simp only [hr]⟩
          | implicit =>
            have he := effDims_of_described (hv.out (by rw [hk]; decide)) hv.inputs
            obtain ⟨r, hr⟩ := insertTendencyProps_isOk (inst := name) he c.diagProps []
            exact ⟨r.2, by simp only [hr]⟩
      obtain ⟨a, ha⟩ := hins
      rw [ha]
      dsimp only
      have hut : (if tid = true then insertProps c name else (c, .ok [])).1.usesTracers = false := by
        cases tid with
        | false => exact hnotr
        | true => simp only [if_true]; rw [(insertProps_kind c name).2.2.1]; exact hnotr
      unfold makePacker
      rw [if_neg (by rw [hut]; simp)]
      exact ⟨_, _, _, rfl⟩
    · right
      refine ⟨?_, hv⟩
      unfold construct
      rw [h]
  refine ⟨⟨fun h => ?_, fun h => ?_⟩, fun h => ?_⟩
  · rcases key with k | k
    · exact k.2
    · obtain ⟨g', c', i, hc⟩ := h
      rw [k.1] at hc; simp at hc
  · rcases key with k | k
    · exact k.1
    · exact absurd h k.2
  · rcases key with k | k
    · exact absurd k.2 h
    · exact k.1

/-- Decidable tests for the demo. -/
example : UnitsKnown Demo.reg id Demo.cls.inProps Demo.cls.diagProps ∧
    UnitsKnown Demo.reg (outFactor Demo.cls.kind) Demo.cls.inProps Demo.cls.outProps ∧
    (∃ g' c' i, construct Demo.reg {} Demo.cls true "me" = (g', c', .ok i)) ∧
    construct Demo.reg {} { Demo.cls with outProps := [("T", { units := some "m" })] } true "me" =
      ({}, { Demo.cls with outProps := [("T", { units := some "m" })] }, .error .invalidPropertyDict) := by
  have k1 : UnitsKnown Demo.reg id Demo.cls.inProps Demo.cls.diagProps := by
    intro kv hkv ip iu u h1 h2 h3
    simp only [Demo.cls, List.mem_cons, List.not_mem_nil, or_false] at hkv
    subst hkv
    simp [Demo.cls, Dict.get?] at h1
  have k2 : ∀ v, (Demo.reg.parse v).isSome → UnitsKnown Demo.reg (outFactor Demo.cls.kind) Demo.cls.inProps
      [("T", { units := some v })] := by
    intro v hv kv hkv ip iu u h1 h2 h3
    simp only [List.mem_cons, List.not_mem_nil, or_false] at hkv
    subst hkv
    simp [Demo.cls, Dict.get?] at h1
    subst h1
    cases h2; cases h3
    exact ⟨by decide +kernel, hv⟩
  refine ⟨k1, k2 _ (by decide +kernel), ?_, ?_⟩
  · have : Exc.test (construct Demo.reg {} Demo.cls true "me").2.2 (fun _ => true) = true := by decide +kernel
    obtain ⟨i, hi, _⟩ := Exc.test_ok this
    exact ⟨_, _, i, by rw [← hi]⟩
  · refine (construct_iff_valid Demo.reg {} { Demo.cls with outProps := [("T", { units := some "m" })] } true "me" k1 (fun _ => k2 "m" (by decide +kernel)) rfl
      (fun _ => by decide)).2 ?_
    intro hv
    obtain ⟨a, b, h1, h2, h3⟩ := hv.outUnits (by decide) ("T", { units := some "m" }) (by simp) _ "K" "m" rfl rfl rfl
    have : Exc.test (Demo.reg.unitsAreCompatible (outFactor Demo.cls.kind "K") "m") (fun b => !b) = true := by
      decide +kernel
    unfold Registry.unitsAreCompatible at this
    rw [Registry.unit_ok.2 h1, Registry.unit_ok.2 h2] at this
    simp [Exc.test, h3] at this

/-- **C19, Steppers with tendencies in diagnostics.**  Construction additionally
requires outputs that are inputs to have the input's dims and unit string. -/
theorem construct_stepper_tid_iff (R : Registry) (g : Tracers) (c : Class) (name : String)
    (hkind : c.kind = .stepper) (hn : c.outProps.keys.Nodup)
    (hkd : UnitsKnown R id c.inProps c.diagProps) (hko : UnitsKnown R id c.inProps c.outProps)
    (hnotr : c.usesTracers = false) :
    let ok := ∃ g' c' i, construct R g c true name = (g', c', .ok i)
    let same := ∀ kv ∈ c.outProps, ∀ ip, c.inProps.get? kv.1 = some ip →
      (kv.2.dims = none ∨ kv.2.dims = ip.dims) ∧ kv.2.units = ip.units
    (ok ↔ ValidProps R c ∧ same) ∧
    (¬ ok → (construct R g c true name).2.2 = .error .invalidPropertyDict) := by
  dsimp only
  have key : ((∃ g' c' i, construct R g c true name = (g', c', .ok i)) ∧
      (ValidProps R c ∧ SameAsInput c.inProps c.outProps)) ∨
      ((construct R g c true name).2.2 = .error .invalidPropertyDict ∧
        ¬ (ValidProps R c ∧ SameAsInput c.inProps c.outProps)) := by
    rcases decides_runCheckers hkd (fun _ => by rw [hkind]; exact hko) with ⟨h, hv⟩ | ⟨h, hv⟩
    · have hout := hv.out (by rw [hkind]; decide)
      have he := effDims_of_described hout hv.inputs
      have hdec := insertStepperProps_decides (inst := name) hn
        (fun kv hkv => ⟨(hout kv hkv).1, he kv hkv⟩) c.diagProps []
      have hp : (insertProps c name).2 = (insertStepperProps name c.outProps c.diagProps c.inProps []).2.2 := by
        unfold insertProps; rw [hkind]
      rcases hdec with ⟨⟨a, ha⟩, hs⟩ | ⟨ha, hs⟩
      · left
        refine ⟨?_, hv, hs⟩
        unfold construct
        rw [h]
        simp only [if_true, hp, ha]
        unfold makePacker
        rw [if_neg (by rw [(insertProps_kind c name).2.2.1, hnotr]; simp)]
        exact ⟨_, _, _, rfl⟩
      · right
        refine ⟨?_, fun hc => hs hc.2⟩
        unfold construct
        rw [h]
        simp only [if_true, hp, ha]
    · right
      refine ⟨?_, fun hc => hv hc.1⟩
      unfold construct
      rw [h]
  refine ⟨⟨fun h => ?_, fun h => ?_⟩, fun h => ?_⟩
  · rcases key with k | k
    · exact k.2
    · obtain ⟨g', c', i, hc⟩ := h
      have := k.1; rw [hc] at this; simp at this
  · rcases key with k | k
    · exact k.1
    · exact absurd h k.2
  · rcases key with k | k
    · exact absurd k.1 h
    · exact k.1

/-- Non-vacuity: the demo Stepper can be constructed; with `degC` output it is
valid but cannot be constructed with tendencies in diagnostics. -/
example : (Exc.test (construct Demo.reg {} Demo.stepCls true "me").2.2 (fun _ => true) &&
    Exc.test (construct Demo.reg {} { Demo.stepCls with outProps := [("T", { units := some "degC" })] }
      false "me").2.2 (fun _ => true) &&
    Exc.failsWith (construct Demo.reg {} { Demo.stepCls with outProps := [("T", { units := some "degC" })] }
      true "me").2.2 .invalidPropertyDict) = true := by decide +kernel

end Verif

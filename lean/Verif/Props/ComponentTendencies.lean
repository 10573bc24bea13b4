import Verif.Lemmas.ComponentCalls
import Verif.Props.Components
/-!
# C16, C18: tendencies in diagnostics, instances of one class
-/

namespace Verif

/-- **C16, the inserted diagnostics.**  With `tendencies_in_diagnostics=True`
every returned tendency `X` (tracers included) is also returned as diagnostic
`X_tendency_from_<name>`. -/
theorem inserted_tendencies_equal {σ : Type} (R : Registry) (g0 g1 g : Tracers) (c0 c : Class)
    (name : String) (i : Inst)
    (arrayCall : σ → RawState → σ × Except Err (Dict NDArray × Dict NDArray)) (s s' : σ)
    (state : State) (tend diag : Dict DataArray)
    (hmade : construct R g0 c0 true name = (g1, c, .ok i))
    (hcall : callTendency R g c i arrayCall s state = (s', .ok (tend, diag))) :
    ∀ x v, tend.get? x = some v → diag.get? (x ++ "_tendency_from_" ++ name) = some v := by
  obtain ⟨_, hname, htid, _, _, _⟩ := construct_ok hmade
  unfold callTendency at hcall
  cases hprep : prepare R g c i state with
  | error e => rw [hprep] at hcall; simp at hcall
  | ok raw =>
    rw [hprep] at hcall
    simp only [Prod.mk.injEq] at hcall
    obtain ⟨_, hcall⟩ := hcall
    obtain ⟨r, _, hcall⟩ := Exc.bind_ok_iff.1 hcall
    unfold finishTendency at hcall
    obtain ⟨tr, htr, hcall⟩ := Exc.bind_ok_iff.1 hcall
    obtain ⟨_, _, hcall⟩ := Exc.bind_ok_iff.1 hcall
    obtain ⟨_, _, hcall⟩ := Exc.bind_ok_iff.1 hcall
    obtain ⟨t, hte, hcall⟩ := Exc.bind_ok_iff.1 hcall
    obtain ⟨d, hdi, hcall⟩ := Exc.bind_ok_iff.1 hcall
    simp only [Except.ok.injEq, Prod.mk.injEq] at hcall
    obtain ⟨e1, e2⟩ := hcall
    have hn : tend.keys.Nodup := by
      rw [← e1]; exact Dict.nodup_keys_update (takeTracers_nodup htr) _
    intro x v hx
    rw [← e2, htid, e1, hname]
    simp only [if_true]
    exact (insertTendencies_get? hn).1 x v hx

/-- Non-vacuity: see the example below `tendency_call_keys`; here the values. -/
example : Exc.test (callTendency Demo.reg {} (Demo.made true).1 (Demo.made true).2 Demo.ac 0 Demo.state).2
    (fun r => match Dict.get? r.1 "T", Dict.get? r.2 "T_tendency_from_me" with
      | some a, some b => decide (a.arr.shape = [3, 2, 2] ∧ b.arr.shape = [3, 2, 2] ∧
          a.arr.get [2, 1, 1] = 242 ∧ b.arr.get [2, 1, 1] = 242)
      | _, _ => false) = true := by
  decide +kernel

/-- **C16, everything else is the same.**  Two instances of one class, one with and
one without `tendencies_in_diagnostics`: on every state the first behaves exactly
as the second (same exception, same internal effect of `array_call`, same
tendencies, same diagnostics) except for the diagnostics named
`X_tendency_from_<name>` of returned tendencies `X`.  Hypotheses: neither the
declared diagnostics and inputs nor the keys returned by `array_call` already use
one of the inserted names. -/
theorem tendencies_in_diagnostics_only_adds {σ : Type} (R : Registry) (g0 gT gF g : Tracers)
    (c0 cT cF : Class) (name nameF : String) (iT iF : Inst)
    (arrayCall : σ → RawState → σ × Except Err (Dict NDArray × Dict NDArray)) (s : σ) (state : State)
    (hkind : c0.kind = .tendency ∨ c0.kind = .implicit)
    (hout : c0.outProps.keys.Nodup)
    (hT : construct R g0 c0 true name = (gT, cT, .ok iT))
    (hF : construct R g0 c0 false nameF = (gF, cF, .ok iF))
    (hnew : ∀ x ∈ c0.outProps.keys, x ++ "_tendency_from_" ++ name ∉ c0.diagProps.keys ∧
      x ++ "_tendency_from_" ++ name ∉ c0.inProps.keys)
    (hret : ∀ raw rawT rawD, (arrayCall s raw).2 = .ok (rawT, rawD) →
      ∀ x ∈ c0.outProps.keys, x ++ "_tendency_from_" ++ name ∉ rawD.keys) :
    (callTendency R g cT iT arrayCall s state).1 = (callTendency R g cF iF arrayCall s state).1 ∧
    (∀ e, (callTendency R g cF iF arrayCall s state).2 = .error e →
      (callTendency R g cT iT arrayCall s state).2 = .error e) ∧
    (∀ tend diag, (callTendency R g cF iF arrayCall s state).2 = .ok (tend, diag) →
      ∃ diag', (callTendency R g cT iT arrayCall s state).2 = .ok (tend, diag') ∧
        (∀ k, (∀ x ∈ tend.keys, k ≠ x ++ "_tendency_from_" ++ name) → diag'.get? k = diag.get? k)) := by
  obtain ⟨_, nT, tT, _, hTt, pT⟩ := construct_ok hT
  obtain ⟨_, nF, tF, hFf, _, pF⟩ := construct_ok hF
  obtain ⟨rfl, hignF⟩ := hFf rfl
  obtain ⟨hcT, hign, _⟩ := insertProps_tendency hkind (hTt rfl)
  have hpk : iT.packer = iF.packer := by
    have : (makePacker g0 cT).2 = (makePacker g0 cF).2 := by
      rw [hcT]; unfold makePacker; rfl
    rw [pT, pF] at this
    simpa using this
  set new := inserted id name cF.inProps cF.outProps with hnewdef
  have hnk : new.keys = cF.outProps.keys.map (tendencyName · name) := keys_inserted _ _ _ _
  have hdis : ∀ k ∈ new.keys, k ∉ cF.diagProps.keys := by
    intro k hk
    rw [hnk, List.mem_map] at hk
    obtain ⟨x, hx, rfl⟩ := hk
    exact (hnew x hx).1
  have hdiagT : cT.diagProps = cF.diagProps ++ new := by
    rw [hcT]; exact Dict.update_eq_append (nodup_keys_inserted hout) hdis
  have hinT : cT.inProps = cF.inProps := by rw [hcT]
  have houtT : cT.outProps = cF.outProps := by rw [hcT]
  have huT : cT.tendencyTimeUnit = cF.tendencyTimeUnit := by rw [hcT]
  have hprep : prepare R g cT iT state = prepare R g cF iF state := prepare_congr hinT hpk
  have hign' : ∀ k, k ∈ iT.ignored ↔ k ∈ new.keys := by intro k; rw [hign, hnk]
  -- after array_call
  have hfin : ∀ rawT rawD, (∀ x ∈ cF.outProps.keys, tendencyName x name ∉ rawD.keys) →
      (∀ e, finishTendency g cF iF state rawT rawD = .error e →
        finishTendency g cT iT state rawT rawD = .error e) ∧
      (∀ tend diag, finishTendency g cF iF state rawT rawD = .ok (tend, diag) →
        finishTendency g cT iT state rawT rawD = .ok (tend, insertTendencies name tend diag)) := by
    intro rawT rawD hrd
    have hchk : checkRaw cT.inProps cT.diagProps iT.ignored rawD =
        checkRaw cF.inProps cF.diagProps iF.ignored rawD := by
      have ho : Omitted cT.inProps cT.diagProps iT.ignored rawD ↔
          Omitted cF.inProps cF.diagProps iF.ignored rawD := by
        unfold Omitted
        rw [hinT, hdiagT, hignF]
        constructor
        · rintro ⟨kv, hkv, h1, h2⟩
          rcases List.mem_append.1 hkv with h | h
          · exact ⟨kv, h, by simp, h2⟩
          · exact absurd ((hign' _).2 (Dict.mem_keys_of_mem h)) h1
        · rintro ⟨kv, hkv, h1, h2⟩
          refine ⟨kv, List.mem_append_left _ hkv, ?_, h2⟩
          rw [hign']
          exact fun hc => hdis _ hc (Dict.mem_keys_of_mem hkv)
      have hu : Undeclared cT.inProps cT.diagProps rawD ↔ Undeclared cF.inProps cF.diagProps rawD := by
        unfold Undeclared
        rw [hinT, hdiagT]
        constructor
        · rintro ⟨k, hk, h⟩
          exact ⟨k, hk, fun kv hkv => h kv (List.mem_append_left _ hkv)⟩
        · rintro ⟨k, hk, h⟩
          refine ⟨k, hk, fun kv hkv => ?_⟩
          rcases List.mem_append.1 hkv with h' | h'
          · exact h kv h'
          · rw [hnewdef] at h'
            unfold inserted at h'
            obtain ⟨x, hx, rfl⟩ := List.mem_map.1 h'
            have hxk := Dict.mem_keys_of_mem hx
            rintro (e | e | ⟨ip, e, _⟩)
            · subst e; exact hrd _ hxk hk
            · simp at e
            · exact (hnew _ hxk).2 (Dict.mem_keys_of_get? e)
      rcases checkRaw_cases cF.inProps cF.diagProps iF.ignored rawD with ⟨h, a1, a2⟩ | ⟨h, a1⟩ | ⟨h, a1, a2⟩ <;>
      rcases checkRaw_cases cT.inProps cT.diagProps iT.ignored rawD with ⟨h', b1, b2⟩ | ⟨h', b1⟩ | ⟨h', b1, b2⟩ <;>
      first
        | exact h'.trans h.symm
        | exact absurd (ho.1 b1) a1
        | exact absurd (ho.2 a1) b1
        | exact absurd (hu.1 b2) a2
        | exact absurd (hu.2 a2) b2
    have hres : restoreDataArrays rawD cT.diagProps state cT.inProps iT.ignored false =
        restoreDataArrays rawD cF.diagProps state cF.inProps iF.ignored false := by
      rw [hdiagT, hinT, hignF]
      apply restore_append_ignored
      · intro k hk hc; exact hdis k ((hign' k).1 hc) hk
      · intro k hk; exact (hign' k).2 hk
    unfold finishTendency
    rw [takeTracers_congr hpk, huT, hchk, houtT, hres, hinT, tT, tF, nT]
    simp only [if_true, Bool.false_eq_true, if_false]
    cases takeTracers g iF rawT state cF.tendencyTimeUnit with
    | error e => simp
    | ok tr =>
      simp only [Exc.ok_bind]
      cases checkRaw cF.inProps cF.outProps [] tr.2 with
      | error e => simp
      | ok _ =>
        simp only [Exc.ok_bind]
        cases checkRaw cF.inProps cF.diagProps iF.ignored rawD with
        | error e => simp
        | ok _ =>
          simp only [Exc.ok_bind]
          cases restoreDataArrays tr.2 cF.outProps state cF.inProps [] false with
          | error e => simp
          | ok t =>
            simp only [Exc.ok_bind]
            cases restoreDataArrays rawD cF.diagProps state cF.inProps iF.ignored false with
            | error e => simp
            | ok d =>
              refine ⟨fun e h => (by simp at h), ?_⟩
              rintro tend diag h
              simp only [Exc.ok_bind, Except.ok.injEq, Prod.mk.injEq] at h ⊢
              obtain ⟨rfl, rfl⟩ := h
              exact ⟨rfl, rfl⟩
  unfold callTendency
  rw [hprep]
  cases prepare R g cF iF state with
  | error e => exact ⟨rfl, fun e h => h, fun _ _ h => by simp at h⟩
  | ok raw =>
    refine ⟨rfl, ?_, ?_⟩
    · intro e h
      dsimp only at h ⊢
      rcases Exc.bind_error_iff.1 h with h | ⟨r, hr, h⟩
      · rw [h]; rfl
      · rw [hr]; exact (hfin r.1 r.2 (hret raw r.1 r.2 hr)).1 e h
    · intro tend diag h
      dsimp only at h ⊢
      obtain ⟨r, hr, h⟩ := Exc.bind_ok_iff.1 h
      rw [hr]
      refine ⟨_, (hfin r.1 r.2 (hret raw r.1 r.2 hr)).2 tend diag h, ?_⟩
      have hn : tend.keys.Nodup := by
        unfold finishTendency at h
        obtain ⟨tr, htr, h⟩ := Exc.bind_ok_iff.1 h
        obtain ⟨_, _, h⟩ := Exc.bind_ok_iff.1 h
        obtain ⟨_, _, h⟩ := Exc.bind_ok_iff.1 h
        obtain ⟨t, hte, h⟩ := Exc.bind_ok_iff.1 h
        obtain ⟨d, hdi, h⟩ := Exc.bind_ok_iff.1 h
        simp only [Except.ok.injEq, Prod.mk.injEq] at h
        rw [← h.1]; exact Dict.nodup_keys_update (takeTracers_nodup htr) _
      intro k hk
      exact (insertTendencies_get? hn).2 k hk

/-- Non-vacuity: both instances of the demo class exist and both calls succeed. -/
example : (Exc.test (construct Demo.reg {} Demo.cls true "me").2.2 (fun _ => true) &&
    Exc.test (construct Demo.reg {} Demo.cls false "me").2.2 (fun _ => true) &&
    Exc.test (callTendency Demo.reg {} (Demo.made false).1 (Demo.made false).2 Demo.ac 0 Demo.state).2
      (fun r => decide (Dict.keys r.1 = ["T"] ∧ Dict.keys r.2 = ["h2"])) &&
    decide ("T_tendency_from_me" ∉ Demo.cls.diagProps.keys ++ Demo.cls.inProps.keys)) = true := by
  decide +kernel

/-! ## C18 -/

/-- **C18 is false of the code.**  An instance created without
`tendencies_in_diagnostics` works; after a second instance of its class is created
with the option, the same call raises ComponentMissingOutputError. -/
theorem instances_interfere :
    ∃ (c0 c1 c2 : Class) (i1 i2 : Inst) (state : State)
      (ac : Nat → RawState → Nat × Except Err (Dict NDArray × Dict NDArray)),
      construct Demo.reg {} c0 false "first" = ({}, c1, .ok i1) ∧
      construct Demo.reg {} c1 true "second" = ({}, c2, .ok i2) ∧
      (∃ r, (callTendency Demo.reg {} c1 i1 ac 0 state).2 = .ok r) ∧
      (callTendency Demo.reg {} c2 i1 ac 0 state).2 = .error .missingOutput := by
  refine ⟨Demo.cls, Demo.cls, (construct Demo.reg {} Demo.cls true "second").2.1,
    ⟨"first", false, [], none⟩, ⟨"second", true, ["T_tendency_from_second"], none⟩, Demo.state, Demo.ac, ?_, ?_, ?_, ?_⟩
  · have : Exc.test (runCheckers Demo.reg Demo.cls) (fun _ => true) = true := by decide +kernel
    obtain ⟨u, hu, _⟩ := Exc.test_ok this
    unfold construct; rw [hu]; rfl
  · have : Exc.test (runCheckers Demo.reg Demo.cls) (fun _ => true) = true := by decide +kernel
    obtain ⟨u, hu, _⟩ := Exc.test_ok this
    unfold construct; rw [hu]; rfl
  · have : Exc.test (callTendency Demo.reg {} Demo.cls ⟨"first", false, [], none⟩ Demo.ac 0 Demo.state).2
      (fun _ => true) = true := by decide +kernel
    obtain ⟨r, hr, _⟩ := Exc.test_ok this
    exact ⟨r, hr⟩
  · apply Exc.failsWith_error
    decide +kernel

/-- **C18, how far the interference goes.**  After an instance of the class is
created with `tendencies_in_diagnostics=True` under some name, *no* call of
another instance succeeds (unless that instance inserts the same diagnostics or
its `array_call` happens to return them). -/
theorem siblings_always_fail {σ : Type} (R : Registry) (g0 g1 g : Tracers) (c c' : Class)
    (name : String) (i i2 : Inst)
    (arrayCall : σ → RawState → σ × Except Err (Dict NDArray × Dict NDArray)) (s : σ) (state : State)
    (hkind : c.kind = .tendency ∨ c.kind = .implicit) (hout : c.outProps.keys.Nodup)
    (hmade : construct R g0 c true name = (g1, c', .ok i2))
    (x : String) (hx : x ∈ c.outProps.keys)
    (hother : x ++ "_tendency_from_" ++ name ∉ i.ignored)
    (hin : x ++ "_tendency_from_" ++ name ∉ c.inProps.keys)
    (hret : ∀ raw rawT rawD, (arrayCall s raw).2 = .ok (rawT, rawD) →
      x ++ "_tendency_from_" ++ name ∉ rawD.keys) :
    ∃ e, (callTendency R g c' i arrayCall s state).2 = .error e := by
  obtain ⟨_, _, _, _, ht, _⟩ := construct_ok hmade
  obtain ⟨hc, _, _⟩ := insertProps_tendency hkind (ht rfl)
  cases hres : (callTendency R g c' i arrayCall s state).2 with
  | error e => exact ⟨e, rfl⟩
  | ok r =>
    exfalso
    unfold callTendency at hres
    cases hprep : prepare R g c' i state with
    | error e => rw [hprep] at hres; simp at hres
    | ok raw =>
      rw [hprep] at hres
      dsimp only at hres
      obtain ⟨rr, hrr, hres⟩ := Exc.bind_ok_iff.1 hres
      unfold finishTendency at hres
      obtain ⟨tr, _, hres⟩ := Exc.bind_ok_iff.1 hres
      obtain ⟨_, _, hres⟩ := Exc.bind_ok_iff.1 hres
      obtain ⟨_, hchk, hres⟩ := Exc.bind_ok_iff.1 hres
      rw [checkRaw_ok] at hchk
      apply hchk.1
      obtain ⟨p, hp⟩ := Dict.get?_of_mem_keys hx
      have hmem : (tendencyName x name, ({ dims := effDims c.inProps x p, units := p.units } : QProps)) ∈
          inserted id name c.inProps c.outProps := by
        unfold inserted
        exact List.mem_map.2 ⟨(x, p), Dict.mem_of_get? hp, by simp⟩
      refine ⟨(tendencyName x name, { dims := effDims c.inProps x p, units := p.units }), ?_, hother, ?_⟩
      · rw [hc]
        apply Dict.mem_of_get?
        rw [Dict.get?_update _ _ (nodup_keys_inserted hout),
          Dict.get?_of_mem (nodup_keys_inserted hout) hmem]
        rfl
      · rw [hc]
        rintro k hk (e | e | ⟨ip, e, _⟩)
        · subst e; exact hret raw rr.1 rr.2 hrr hk
        · simp at e
        · exact hin (Dict.mem_keys_of_get? e)

/-- **C18, the part that holds.**  Creating an instance without the option, or a
second instance with the option and the same name, leaves the class unchanged, so
every later call of every instance of the class behaves as if it had not been
created. -/
theorem instances_do_not_interfere_partial (R : Registry) (g g1 g2 g3 : Tracers) (c c1 c2 c3 : Class)
    (name : String) (i1 i2 i3 : Inst)
    (hkind : c.kind = .tendency ∨ c.kind = .implicit) (hout : c.outProps.keys.Nodup) :
    (construct R g c false name = (g1, c1, .ok i1) → c1 = c) ∧
    (construct R g c true name = (g2, c2, .ok i2) → construct R g2 c2 true name = (g3, c3, .ok i3) →
      c3 = c2) := by
  refine ⟨fun h => ((construct_ok h).2.2.2.1 rfl).1, fun h h' => ?_⟩
  obtain ⟨e1, _, _⟩ := insertProps_tendency hkind ((construct_ok h).2.2.2.2.1 rfl)
  have hk2 : c2.kind = .tendency ∨ c2.kind = .implicit := by rw [e1]; exact hkind
  obtain ⟨e2, _, _⟩ := insertProps_tendency hk2 ((construct_ok h').2.2.2.2.1 rfl)
  rw [e2, e1]
  simp only
  rw [Dict.update_update_self (nodup_keys_inserted hout)]

/-- Non-vacuity: creating the demo class twice with the same name. -/
example : Exc.test (construct Demo.reg {} (construct Demo.reg {} Demo.cls true "me").2.1 true "me").2.2
    (fun i => decide (i.ignored = ["T_tendency_from_me"])) = true := by decide +kernel

end Verif

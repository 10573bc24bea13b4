import Verif.Lemmas.StepperDiff
import Verif.Props.Components
/-!
# C17: tendencies a Stepper puts in its diagnostics
-/

namespace Verif

/-- **C17.**  A Stepper created with `tendencies_in_diagnostics=True` returns for
every output `X` a diagnostic `X_tendency_from_<name>` with the dims and shape of
the new `X`, in the units of `X` followed by `s^-1`, and with value
`(new - old) / (timestep in seconds)` at all named coordinates, where `old` is the
state's value expressed in the units of the output.

Hypotheses: outputs have no alias; every named dim of an output is
the dim of some input. -/
theorem stepper_tendencies_are_differences_partial {σ : Type} (R : Registry) (hR : R.Faithful)
    (g0 g1 g : Tracers) (c0 c : Class) (name : String) (i : Inst)
    (arrayCall : σ → RawState → Int → σ × Except Err (Dict NDArray × Dict NDArray)) (s s' : σ)
    (state : State) (dt : Int) (diag new : Dict DataArray)
    (hwf : state.WF) (hsf : state.StarFree)
    (hkind : c0.kind = .stepper) (hout : c0.outProps.keys.Nodup) (hdiag : c0.diagProps.keys.Nodup)
    (hin : (c0.inProps.map outName).Nodup)
    (hone : OneStar c0.inProps) (hone' : OneStar c0.outProps)
    (hoal : ∀ kv ∈ c0.outProps, kv.2.aliasName = none)
    (hial : ∀ kv ∈ c0.inProps, kv.2.aliasName ≠ none → outName kv ∉ c0.outProps.keys ∧
      kv.1 ∉ c0.outProps.keys ∧ ∀ x ∈ c0.outProps.keys, kv.1 ≠ x ++ "_tendency_from_" ++ name)
    (htr : "tracers" ∉ c0.outProps.keys)
    (hmade : construct R g0 c0 true name = (g1, c, .ok i))
    (hcall : callStepper R g c i arrayCall s state dt = (s', .ok (diag, new)))
    (hknown : ∀ kv ∈ c0.outProps, ∀ dims, effDims c0.inProps kv.1 kv.2 = some dims →
      ∀ d ∈ dims, d ≠ "*" → ∃ q ∈ requested state c.inProps, d ∈ q.1.dims) :
    ∀ kv ∈ c0.outProps, ∃ d n old units own,
      diag.get? (kv.1 ++ "_tendency_from_" ++ name) = some d ∧ new.get? kv.1 = some n ∧
      Dict.get? state kv.1 = some (.da old) ∧ kv.2.units = some units ∧
      old.attrs.get? "units" = some own ∧
      d.attrs = [("units", rateUnits units)] ∧ n.attrs = [("units", units)] ∧
      d.dims = n.dims ∧ d.arr.shape = n.arr.shape ∧
      ∀ ix : String → Nat, InB (n.dims.map ix) n.arr.shape →
        ∃ y, SamePhysical R units y own (old.at' ix) ∧
          d.at' ix = (n.at' ix - y) / ((dt : Rat) / 1000000) := by
  obtain ⟨_, hname, htid, _, ht, _⟩ := construct_ok hmade
  obtain ⟨hc, _, hprops⟩ := insertProps_stepper hkind hout (ht rfl)
  have hcin : c.inProps = c0.inProps ++ addedInputs c0.inProps c0.outProps := by rw [hc]
  have hcout : c.outProps = c0.outProps := by rw [hc]
  have hcdiag : c.diagProps = c0.diagProps.update (inserted perSecond name c0.inProps c0.outProps) := by
    rw [hc]
  -- the added inputs
  have hadd : ∀ kv ∈ addedInputs c0.inProps c0.outProps, kv.1 ∉ c0.inProps.keys ∧
      kv.1 ∈ c0.outProps.keys ∧ kv.2.aliasName = none ∧ ∃ kv0 ∈ c0.outProps, kv0.2.dims = kv.2.dims := by
    intro kv hkv
    unfold addedInputs at hkv
    obtain ⟨kv0, h0, rfl⟩ := List.mem_map.1 hkv
    rw [List.mem_filter] at h0
    exact ⟨by simpa using h0.2, Dict.mem_keys_of_mem (kv := kv0) h0.1, rfl, kv0, h0.1, rfl⟩
  have haddn : ((addedInputs c0.inProps c0.outProps).map outName).Nodup := by
    have : (addedInputs c0.inProps c0.outProps).map outName =
        (c0.outProps.filter fun kv => kv.1 ∉ c0.inProps.keys).map (·.1) := by
      unfold addedInputs
      rw [List.map_map]
      rfl
    rw [this]
    exact List.Sublist.nodup (List.filter_sublist.map _) hout
  have hkeys : (c.inProps.map outName).Nodup := by
    rw [hcin, List.map_append, List.nodup_append]
    refine ⟨hin, haddn, ?_⟩
    intro a ha b hb e
    subst e
    obtain ⟨kv, hkv, rfl⟩ := List.mem_map.1 ha
    obtain ⟨kv', hkv', e⟩ := List.mem_map.1 hb
    obtain ⟨h1, h2, h3, _⟩ := hadd kv' hkv'
    have e' : outName kv' = kv'.1 := by unfold outName; rw [h3]; rfl
    cases hal : kv.2.aliasName with
    | none =>
      have e'' : outName kv = kv.1 := by unfold outName; rw [hal]; rfl
      rw [e', e''] at e
      exact h1 (e ▸ Dict.mem_keys_of_mem (kv := kv) hkv)
    | some al =>
      have := (hial kv hkv (by simp [hal])).1
      rw [← e, e'] at this
      exact this h2
  have honec : OneStar c.inProps := by
    intro kv hkv d hd
    rw [hcin] at hkv
    rcases List.mem_append.1 hkv with h | h
    · exact hone kv h d hd
    · obtain ⟨_, _, _, kv0, h0, e⟩ := hadd kv h
      exact hone' kv0 h0 d (e ▸ hd)
  have hinal : ∀ x ip, (x ∈ c0.outProps.keys ∨ ∃ y ∈ c0.outProps.keys, x = tendencyName y name) →
      c.inProps.get? x = some ip → ip.aliasName = none := by
    intro x ip hx hip
    have := Dict.mem_of_get? hip
    rw [hcin] at this
    rcases List.mem_append.1 this with h | h
    · by_contra hne
      obtain ⟨_, h2, h3⟩ := hial _ h hne
      rcases hx with hx | ⟨y, hy, hx⟩
      · exact h2 hx
      · exact h3 y hy hx
    · exact (hadd _ h).2.2.1
  unfold callStepper at hcall
  cases hprep : prepare R g c i state with
  | error e => rw [hprep] at hcall; simp at hcall
  | ok raw =>
    rw [hprep] at hcall
    simp only [Prod.mk.injEq] at hcall
    obtain ⟨_, hcall⟩ := hcall
    obtain ⟨r, hr, hcall⟩ := Exc.bind_ok_iff.1 hcall
    unfold finishStepper at hcall
    obtain ⟨tr, htrk, hcall⟩ := Exc.bind_ok_iff.1 hcall
    obtain ⟨_, _, hcall⟩ := Exc.bind_ok_iff.1 hcall
    obtain ⟨_, _, hcall⟩ := Exc.bind_ok_iff.1 hcall
    obtain ⟨rawD', hdiff, hcall⟩ := Exc.bind_ok_iff.1 hcall
    obtain ⟨d, hdi, hcall⟩ := Exc.bind_ok_iff.1 hcall
    obtain ⟨t, hte, hcall⟩ := Exc.bind_ok_iff.1 hcall
    simp only [Except.ok.injEq, Prod.mk.injEq] at hcall
    obtain ⟨rfl, e1⟩ := hcall
    rw [htid, if_pos rfl, hname, hcout] at hdiff
    obtain ⟨k1, _⟩ := insertDifferences_ok hout hdiff
    -- the raw inputs
    unfold prepare at hprep
    obtain ⟨_, _, hprep⟩ := Exc.bind_ok_iff.1 hprep
    obtain ⟨raw0, hraw0, hprep⟩ := Exc.bind_ok_iff.1 hprep
    obtain ⟨raw1, hraw1, hprep⟩ := Exc.bind_ok_iff.1 hprep
    obtain ⟨tm, _, hprep⟩ := Exc.bind_ok_iff.1 hprep
    cases hprep
    have hraws : ∀ x, x ≠ "tracers" → raw1.get? x = raw0.get? x := by
      intro x hx
      cases hp : i.packer with
      | none => rw [hp] at hraw1; cases hraw1; rfl
      | some p =>
        rw [hp] at hraw1
        obtain ⟨t, _, h⟩ := Exc.bind_ok_iff.1 hraw1
        cases h
        exact Dict.get?_set_ne _ _ (fun e => hx e.symm)
    have hrawn : ∀ x, x ≠ "tracers" → tr.2.get? x = r.2.get? x := by
      intro x hx
      obtain ⟨_, t1, t2⟩ := takeTracers_keys htrk
      by_cases hp : i.packer = none
      · rw [t1 hp]
      · rw [t2 hp, Dict.get?_erase_ne _ (fun e => hx e.symm)]
    obtain ⟨wl, hw, inv, hwl, hstar, hvals⟩ := getNumpyArrays_full hR hwf hsf honec hkeys hraw0
    intro kv hkv
    have hx := Dict.mem_keys_of_mem (kv := kv) hkv
    have hxt : kv.1 ≠ "tracers" := fun e => htr (e ▸ hx)
    obtain ⟨dims, units, ip, p1, p2, p3, p4, p5⟩ := hprops kv hkv
    obtain ⟨a, b, dd, q1, q2, q3, q4⟩ := k1 kv.1 hx
    have hipal := hinal kv.1 ip (Or.inl hx) p3
    obtain ⟨dims', units', old, own, rawx, v1, v2, v3, v4, v5, v6, v7⟩ := hvals (kv.1, ip) (Dict.mem_of_get? p3)
    simp only at v1 v2 v3
    rw [p4] at v1; cases v1
    rw [p5] at v2; cases v2
    have hon : outName (kv.1, ip) = kv.1 := by unfold outName; simp [hipal]
    rw [hon] at v5
    simp only at q2
    rw [hraws kv.1 hxt, v5] at q2; cases q2
    have hstar' : "*" ∈ dims → ∃ ikv ∈ c.inProps, ∃ idims, ikv.2.dims = some idims ∧ "*" ∈ idims :=
      fun hs => ⟨(kv.1, ip), Dict.mem_of_get? p3, dims, p4, hs⟩
    have hcount : dims.count "*" ≤ 1 := honec (kv.1, ip) (Dict.mem_of_get? p3) dims p4
    have hkn := hknown kv hkv dims p1
    -- the new value
    have hganN : getAliasOrName kv.1 c.outProps c.inProps = kv.1 := by
      unfold getAliasOrName
      rw [hcout, Dict.get?_of_mem hout hkv, p3]
      simp [hoal kv hkv, hipal]
    have heffN : effDims c.inProps kv.1 kv.2 = some dims := by
      unfold effDims at p1 ⊢
      rw [p3]
      cases hd : kv.2.dims with
      | some d' => rw [hd] at p1; simpa using p1
      | none => simp [p4]
    obtain ⟨n, un, n1, n2, n3, n4, n5, n7, n6⟩ := restore_at hwf (by rw [hcout]; exact hout) hw hte
      (by rw [hcout]; exact hkv) (by simp) heffN hcount hstar' hkn
      (a := a) (by rw [hganN]; exact q1)
    rw [p2] at n2; cases n2
    -- the diagnostic
    set pd : QProps := { dims := effDims c0.inProps kv.1 kv.2, units := kv.2.units.map perSecond } with hpd
    have hmemI : (tendencyName kv.1 name, pd) ∈ inserted perSecond name c0.inProps c0.outProps := by
      unfold inserted
      exact List.mem_map.2 ⟨kv, hkv, rfl⟩
    have hdn : c.diagProps.keys.Nodup := by rw [hcdiag]; exact Dict.nodup_keys_update hdiag _
    have hgetD : c.diagProps.get? (tendencyName kv.1 name) = some pd := by
      rw [hcdiag, Dict.get?_update _ _ (nodup_keys_inserted hout),
        Dict.get?_of_mem (nodup_keys_inserted hout) hmemI]
      rfl
    have hganD : getAliasOrName (tendencyName kv.1 name) c.diagProps c.inProps = tendencyName kv.1 name := by
      unfold getAliasOrName
      rw [hgetD]
      simp only [Option.bind_some]
      cases hi : c.inProps.get? (tendencyName kv.1 name) with
      | none => simp [hpd]
      | some ip' =>
        have := hinal _ ip' (Or.inr ⟨kv.1, hx, rfl⟩) hi
        simp [hpd, this]
    obtain ⟨d, ud, d1, d2, d3, d4, d5, d7, d6⟩ := restore_at hwf hdn hw hdi
      (kv := (tendencyName kv.1 name, pd)) (Dict.mem_of_get? hgetD) (by simp) (dims := dims)
      (by unfold effDims; rw [hpd, p1]; rfl) hcount hstar' hkn
      (a := dd) (by rw [hganD]; exact q4)
    have hud : ud = rateUnits units := by
      rw [hpd, p2] at d2
      simp only [Option.map_some, Option.some.injEq] at d2
      exact d2.symm
    subst hud
    refine ⟨d, n, old, units, own, d1, ?_, v3, p2, v4, d3, n3, d4.trans n4.symm, ?_, ?_⟩
    · rw [← e1, Dict.get?_update _ _ (restore_nodup hte), n1]; rfl
    · rw [d5, n5, d4, n4]
    · intro ix hix
      have hixd : InB (d.dims.map ix) d.arr.shape := by rw [d5, d4, ← n4, ← n5]; exact hix
      have hb : ∀ x ∈ outDimsSpec dims (wildSpec (requested state c.inProps)), ix x < lenOr1 wl.2 x := by
        rw [n5, inB_map, n4] at hix; exact hix
      refine ⟨_, v7 ix (fun d h1 h2 => hb d (mem_outDimsSpec.2 (Or.inl ⟨h1, h2⟩)))
        (fun hs d h2 => hb d (mem_outDimsSpec.2 (Or.inr ⟨hs, h2⟩))), ?_⟩
      have hsz : n.arr.shape = d.arr.shape := by rw [d5, n5, d4, n4]
      have hdm : n.dims = d.dims := n4.trans d4.symm
      obtain ⟨sp1, sp2⟩ := ravel_spec (dims := dims) (w := wildSpec (requested state c.inProps)) (L := lenOr1 wl.2) (ix := ix)
      rw [← d4, ← d5] at sp1 sp2
      rw [d6 ix hixd, n6 ix hix, zipWith_same_size q3 (by rw [n7, d7, hsz]) (by rw [v6, sp1, d7])
        (by rw [d7]; exact ravel_lt hixd), v6, ← sp2, unravel_ravel (inB_specIndex hb), sp2, hsz, hdm]
      rfl

/-- Non-vacuity: the demo Stepper doubles `T` and sets `h` to zero; over half a
second `T` (at x=1, z=2, y=1) changes from 121 to 242 and `h` (in km, at z=2) from
3 to 0. -/
example : Exc.test (callStepper Demo.reg {} (Demo.made true Demo.stepCls).1 (Demo.made true Demo.stepCls).2
      Demo.stepAc 0 Demo.state 500000).2
    (fun r => match Dict.get? r.1 "T_tendency_from_me", Dict.get? r.1 "h_tendency_from_me" with
      | some a, some b => decide (a.dims = ["z", "x", "y"] ∧ b.dims = ["z"] ∧
          a.arr.get [2, 1, 1] = 242 ∧ b.arr.get [2] = -6 ∧
          a.attrs = [("units", "K s^-1")] ∧ b.attrs = [("units", "km s^-1")])
      | _, _ => false) = true := by
  decide +kernel

/-- The hypotheses about names hold of the demo Stepper. -/
example : (Demo.stepCls.inProps.map outName).Nodup ∧ Demo.stepCls.outProps.keys.Nodup ∧
    (∀ kv ∈ Demo.stepCls.outProps, kv.2.aliasName = none) ∧
    (∀ kv ∈ Demo.stepCls.inProps, kv.2.aliasName = none) ∧ "tracers" ∉ Demo.stepCls.outProps.keys := by
  decide

/-- A Stepper with an aliased output cannot be used with
`tendencies_in_diagnostics`: the call raises KeyError although `array_call` returns
the output as its alias prescribes. -/
theorem stepper_alias_tendencies_keyError :
    ∃ (c0 c : Class) (i : Inst),
      construct Demo.reg {} c0 true "me" = ({}, c, .ok i) ∧
      ∃ (ac : Nat → RawState → Int → Nat × Except Err (Dict NDArray × Dict NDArray)),
        (callStepper Demo.reg {} c i ac 0 Demo.state 1000000).2 = .error .keyError ∧
        ∃ cF iF, construct Demo.reg {} c0 false "me" = ({}, cF, .ok iF) ∧
          ∃ r, (callStepper Demo.reg {} cF iF ac 0 Demo.state 1000000).2 = .ok r := by
  let c0 : Class :=
    { kind := .stepper
      inProps := [("h", { dims := some ["z"], units := some "km", aliasName := some "hh" })]
      outProps := [("h", { units := some "km" })]
      diagProps := [] }
  let ac : Nat → RawState → Int → Nat × Except Err (Dict NDArray × Dict NDArray) :=
    fun n raw _ => (n, raw.arrays.get "hh" >>= fun a => .ok ([], [("hh", a)]))
  have hrun : ∃ u, runCheckers Demo.reg c0 = .ok u := by
    have : Exc.test (runCheckers Demo.reg c0) (fun _ => true) = true := by decide +kernel
    obtain ⟨u, hu, _⟩ := Exc.test_ok this
    exact ⟨u, hu⟩
  obtain ⟨u, hu⟩ := hrun
  refine ⟨c0, (construct Demo.reg {} c0 true "me").2.1, ⟨"me", true, ["h_tendency_from_me"], none⟩, ?_,
    ac, ?_, c0, ⟨"me", false, [], none⟩, ?_, ?_⟩
  · unfold construct; rw [hu]; rfl
  · apply Exc.failsWith_error; decide +kernel
  · unfold construct; rw [hu]; rfl
  · have : Exc.test (callStepper Demo.reg {} c0 ⟨"me", false, [], none⟩ ac 0 Demo.state 1000000).2
      (fun _ => true) = true := by decide +kernel
    obtain ⟨r, hr, _⟩ := Exc.test_ok this
    exact ⟨r, hr⟩

end Verif

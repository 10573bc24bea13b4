import Verif.Spec.OutputFaults
import Verif.Spec.RunsComplete
import Verif.Props.Aliases
import Verif.Props.InputArrays
import Verif.Lemmas.StepperDiff
/-! # C102: when a call succeeds after `array_call`, and how it fails -/

namespace Verif

theorem dict_get_error {α : Type} {d : Dict α} {k : String} {e : Err} (h : d.get k = .error e) :
    e = .keyError ∧ d.get? k = none := by
  unfold Dict.get at h
  cases hk : d.get? k with
  | none => rw [hk] at h; cases h; exact ⟨rfl, rfl⟩
  | some v => rw [hk] at h; cases h

theorem mapM_get_error {α : Type} {d : Dict α} {l : List String} {e : Err}
    (h : l.mapM (fun k => d.get k) = .error e) : e = .keyError ∧ ∃ k ∈ l, d.get? k = none := by
  induction l with
  | nil => cases h
  | cons k l ih =>
    rw [List.mapM_cons] at h
    rcases Exc.bind_error_iff.1 h with h | ⟨v, _, h⟩
    · exact ⟨(dict_get_error h).1, k, List.mem_cons_self, (dict_get_error h).2⟩
    · rcases Exc.bind_error_iff.1 h with h | ⟨vs, _, h⟩
      · obtain ⟨h1, k', h2, h3⟩ := ih h
        exact ⟨h1, k', List.mem_cons_of_mem _ h2, h3⟩
      · cases h

/-- What fails in one iteration of restoring. -/
theorem restoreOne_error {raw : Dict NDArray} {outProps inProps : PropDict}
    {wild : Option (List String)} {lens : Dict Nat} {name : String} {dims : List String} {e : Err}
    (hu : ∃ u, (outProps.get? name).bind (·.units) = some u)
    (hwk : ∀ w, wild = some w → ∀ d ∈ w, ∃ m, lens.get? d = some m)
    (hone : dims.count "*" ≤ 1)
    (h : restoreOne raw outProps inProps wild lens name dims = .error e) :
    (e = .keyError ∧ raw.get? (getAliasOrName name outProps inProps) = none) ∨
    ∃ a, raw.get? (getAliasOrName name outProps inProps) = some a ∧
      ((e = .keyError ∧ "*" ∈ dims ∧ a.shape.length < dims.length) ∨
       (e = .typeError ∧ "*" ∈ dims ∧ wild = none) ∨
       (e = .invalidPropertyDict ∧ ("*" ∈ dims → wild ≠ none))) := by
  unfold restoreOne at h
  rcases Exc.bind_error_iff.1 h with h | ⟨a, ha, h⟩
  · exact .inl (dict_get_error h)
  rw [Dict.get_eq_ok] at ha
  refine .inr ⟨a, ha, ?_⟩
  obtain ⟨u, hu⟩ := hu
  have hlack : ∀ d, d ∈ dims → d ≠ "*" → (learnOutLens (dims.zip a.shape) lens).get? d = none →
      a.shape.length < dims.length := by
    intro d hd hne hn
    by_contra hc
    obtain ⟨m, hm⟩ := (learnOutLens_mono (zs := dims.zip a.shape) (lens := lens)).2.2 d
      (by rw [List.map_fst_zip (by omega)]; exact hd) hne
    rw [hm] at hn; cases hn
  rcases Exc.bind_error_iff.1 h with h | ⟨r, hr, h⟩
  · split at h
    · rename_i hs
      have hsplit := split_at_idxOf hs
      cases hw : wild with
      | none =>
        rw [hw] at h
        rcases Exc.bind_error_iff.1 h with h | ⟨_, _, h⟩
        · obtain ⟨h1, d, h2, h3⟩ := mapM_get_error h
          exact .inl ⟨h1, hs, hlack d (List.mem_of_mem_take h2) (fun e => hsplit.2 (e ▸ h2)) h3⟩
        · cases h; exact .inr (.inl ⟨rfl, hs, rfl⟩)
      | some w =>
        rw [hw] at h
        rcases Exc.bind_error_iff.1 h with h | ⟨ds, _, h⟩
        · left
          unfold fillDims at h
          rcases Exc.bind_error_iff.1 h with h | ⟨_, _, h⟩
          · obtain ⟨h1, d, h2, h3⟩ := mapM_get_error h
            refine ⟨h1, hs, ?_⟩
            have hpost : "*" ∉ dims.drop (dims.idxOf "*" + 1) := by
              have := hone
              rw [hsplit.1, List.count_append, List.count_cons_self] at this
              exact List.count_eq_zero.1 (by omega)
            simp only [List.mem_append] at h2
            rcases h2 with (h2 | h2) | h2
            · exact hlack d (List.mem_of_mem_take h2) (fun e => hsplit.2 (e ▸ h2)) h3
            · obtain ⟨m, hm⟩ := hwk w hw d h2
              rw [learnOutLens_mono.1 d m hm] at h3; cases h3
            · exact hlack d (List.mem_of_mem_drop h2) (fun e => hpost (e ▸ h2)) h3
          · cases h
        · cases hr : a.reshape ds.2 with
          | error e' => rw [hr] at h; cases h; exact .inr (.inr ⟨rfl, fun _ => by simp⟩)
          | ok arr => rw [hr] at h; cases h
    · rename_i hs
      rcases Exc.bind_error_iff.1 h with h | ⟨_, _, h⟩
      · unfold checkArrayShape at h
        have : e = .invalidPropertyDict := by
          split at h
          · cases h; rfl
          · split at h
            · cases h
            · cases h; rfl
        exact .inr (.inr ⟨this, fun h => absurd h hs⟩)
      · cases h
  · exfalso
    rw [hu] at h
    dsimp only at h
    have hlen : r.1.length = r.2.1.shape.length := by
      split at hr
      · rename_i hs
        cases hw : wild with
        | none =>
          rw [hw] at hr
          obtain ⟨_, _, hr⟩ := Exc.bind_ok_iff.1 hr
          cases hr
        | some w =>
          rw [hw] at hr
          obtain ⟨ds, hds, hr⟩ := Exc.bind_ok_iff.1 hr
          obtain ⟨f1, f2, _⟩ := fillDims_ok hds
          cases hre : a.reshape ds.2 with
          | error e' => rw [hre] at hr; cases hr
          | ok arr =>
            rw [hre] at hr; cases hr
            dsimp only
            rw [(NDArray.reshape_ok hre).2.1, f1, f2, List.length_map]
      · obtain ⟨_, hc, hr⟩ := Exc.bind_ok_iff.1 hr
        cases hr
        exact (checkArrayShape_ok.1 hc).1
    unfold DataArray.mk' at h
    rw [if_pos hlen] at h
    cases h

/-- What fails in the loop. -/
theorem restoreLoop_error {raw : Dict NDArray} {outProps inProps : PropDict}
    {wild : Option (List String)} {w : List String} {ignore : List String} {ds : Dict (List String)}
    {lens0 : Dict Nat} {out0 : Dict DataArray} {e : Err}
    (hw : wild = some w ∨ wild = none)
    (hds : ∀ nd ∈ ds, nd.1 ∉ ignore → (∃ u, (outProps.get? nd.1).bind (·.units) = some u) ∧ nd.2.count "*" ≤ 1)
    (hwk : ∀ d ∈ w, ∃ m, lens0.get? d = some m)
    (h : restoreLoop raw outProps inProps wild ignore ds lens0 out0 = .error e) :
    (e = .keyError ∧ ∃ nd ∈ ds, nd.1 ∉ ignore ∧ (raw.get? (getAliasOrName nd.1 outProps inProps) = none ∨
      ∃ a, raw.get? (getAliasOrName nd.1 outProps inProps) = some a ∧ "*" ∈ nd.2 ∧
        a.shape.length < nd.2.length)) ∨
    (e = .typeError ∧ ∃ nd ∈ ds, nd.1 ∉ ignore ∧ "*" ∈ nd.2 ∧ wild = none) ∨
    (e = .invalidPropertyDict ∧ ∀ L : String → Nat, (∀ d m, lens0.get? d = some m → L d = m) →
      ∃ nd ∈ ds, nd.1 ∉ ignore ∧ ∃ a, raw.get? (getAliasOrName nd.1 outProps inProps) = some a ∧
        a.shape ≠ specShape nd.2 w L) := by
  induction ds generalizing lens0 out0 with
  | nil => cases h
  | cons nd ds ih =>
    obtain ⟨name, d⟩ := nd
    unfold restoreLoop at h
    have hds' := fun nd hnd => hds nd (List.mem_cons_of_mem _ hnd)
    by_cases hig : name ∈ ignore
    · rw [if_pos hig] at h
      rcases ih hds' hwk h with ⟨h1, nd, h2, h3⟩ | ⟨h1, nd, h2, h3⟩ | ⟨h1, h2⟩
      · exact .inl ⟨h1, nd, List.mem_cons_of_mem _ h2, h3⟩
      · exact .inr (.inl ⟨h1, nd, List.mem_cons_of_mem _ h2, h3⟩)
      · refine .inr (.inr ⟨h1, fun L hL => ?_⟩)
        obtain ⟨nd, h3, h4⟩ := h2 L hL
        exact ⟨nd, List.mem_cons_of_mem _ h3, h4⟩
    · rw [if_neg hig] at h
      obtain ⟨hu, hone⟩ := hds _ List.mem_cons_self hig
      rcases Exc.bind_error_iff.1 h with h | ⟨r, hr, h⟩
      · rcases restoreOne_error hu (fun w' hw' => by
            rcases hw with hw | hw
            · rw [hw] at hw'; cases hw'; exact hwk
            · rw [hw] at hw'; cases hw') hone h with ⟨h1, h2⟩ | ⟨a, ha, ⟨h1, h2, h3⟩ | ⟨h1, h2, h3⟩ | ⟨h1, h2⟩⟩
        · exact .inl ⟨h1, _, List.mem_cons_self, hig, .inl h2⟩
        · exact .inl ⟨h1, _, List.mem_cons_self, hig, .inr ⟨a, ha, h2, h3⟩⟩
        · exact .inr (.inl ⟨h1, _, List.mem_cons_self, hig, h2, h3⟩)
        · refine .inr (.inr ⟨h1, fun L hL => ⟨_, List.mem_cons_self, hig, a, ha, fun hsh => ?_⟩⟩)
          obtain ⟨u, hu⟩ := hu
          obtain ⟨r, hr⟩ := restoreOne_isOk (wild := wild) (lens := lens0) ha hu
            (fun hs => hw.resolve_right (h2 hs)) hone hL (fun _ => hwk) hsh
          rw [hr] at h; cases h
      · have hres := restoreOne_ok hr
        rcases ih hds' (lens0 := r.2) (fun d hd => by
            obtain ⟨m, hm⟩ := hwk d hd
            exact ⟨m, hres.mono d m hm⟩) h with ⟨h1, nd, h2, h3⟩ | ⟨h1, nd, h2, h3⟩ | ⟨h1, h2⟩
        · exact .inl ⟨h1, nd, List.mem_cons_of_mem _ h2, h3⟩
        · exact .inr (.inl ⟨h1, nd, List.mem_cons_of_mem _ h2, h3⟩)
        · refine .inr (.inr ⟨h1, fun L hL => ?_⟩)
          obtain ⟨a, _, ha, _⟩ := hres.exists_raw
          by_cases hsh : a.shape = specShape d w L
          · obtain ⟨nd, h3, h4⟩ := h2 L (hres.lens_spec ha hL hsh)
            exact ⟨nd, List.mem_cons_of_mem _ h3, h4⟩
          · exact ⟨_, List.mem_cons_self, hig, a, ha, hsh⟩

/-- What fails in restoring the outputs of a component whose inputs were accepted. -/
theorem restore_error {raw : Dict NDArray} {props : PropDict} {state : State} {inProps : PropDict}
    {ign : List String} {e : Err} (hwf : state.WF) (hn : props.keys.Nodup)
    (hwild : ∃ wl, getWildcard state inProps = .ok wl)
    (harr : Arranged inProps props)
    (h : restoreDataArrays raw props state inProps ign false = .error e) :
    (e = .keyError ∨ e = .typeError ∨ e = .invalidPropertyDict) ∧
      OutputFault state inProps props ign raw e := by
  obtain ⟨wl, hw⟩ := hwild
  obtain ⟨inv, hw1, hw2⟩ := getWildcard_ok hwf hw
  unfold restoreDataArrays at h
  rw [hw] at h
  simp only [Exc.ok_bind, Bool.false_eq_true, if_false] at h
  obtain ⟨ds, hds⟩ := extractOutDims_isOk (inProps := inProps) (ignore := ign) (outProps := props)
    (acc := []) (fun kv hkv _ => by
      obtain ⟨_, dims, h1, _⟩ := harr kv hkv
      exact ⟨dims, h1⟩)
  rw [hds, Exc.ok_bind] at h
  obtain ⟨rest, e1, e2, e3, e4⟩ := extractOutDims_ok hds (by simpa using hn)
  simp only [List.nil_append] at e1
  subst e1
  have hname : ∀ nd ∈ ds, ∃ p, (nd.1, p) ∈ props ∧ effDims inProps nd.1 p = some nd.2 ∧
      getAliasOrName nd.1 props inProps = returnName inProps props nd.1 := by
    intro nd hnd
    obtain ⟨_, p, p1, p2⟩ := e2 nd hnd
    exact ⟨p, p1, p2, getAliasOrName_eq (Dict.mem_keys_of_mem p1)⟩
  rcases restoreLoop_error (w := wildSpec (requested state inProps)) hw1 (fun nd hnd _ => by
      obtain ⟨p, p1, p2, _⟩ := hname nd hnd
      obtain ⟨⟨u, hu⟩, dims, d1, d2⟩ := harr _ p1
      refine ⟨⟨u, ?_⟩, ?_⟩
      · rw [Dict.get?_of_mem hn p1]; exact hu
      · rw [p2] at d1; cases d1; exact d2) (fun d hd => by
      obtain ⟨q, hq, hd1, _⟩ := mem_wildSpec.1 hd
      obtain ⟨kv, hkv, q1, q2⟩ := mem_requested.1 hq
      obtain ⟨dims, units, a, i1, i2, i3, i4, i5⟩ := inv.entry kv hkv
      rw [q1] at i3; cases i3
      exact ⟨_, i4 d hd1⟩) h with ⟨rfl, nd, n1, n2, n3⟩ | ⟨rfl, nd, n1, n2, n3, n4⟩ | ⟨rfl, h2⟩
  · obtain ⟨p, p1, p2, p3⟩ := hname nd n1
    refine ⟨.inl rfl, ?_⟩
    rw [p3] at n3
    rcases n3 with n3 | ⟨a, n3, n4, n5⟩
    · exact .inl ⟨_, p1, n2, n3⟩
    · exact .inr ⟨_, p1, n2, _, a, p2, n4, n3, n5⟩
  · obtain ⟨p, p1, p2, p3⟩ := hname nd n1
    exact ⟨.inr (.inl rfl), _, p1, n2, ⟨_, p2, n3⟩, hw2.1 n4⟩
  · refine ⟨.inr (.inr rfl), fun L hL => ?_⟩
    obtain ⟨nd, n1, n2, a, n3, n4⟩ := h2 L (fun d m hm => by
      rcases inv.origin d m hm with h | ⟨q, hq, hd⟩
      · cases h
      · rw [hL q hq d hd]
        obtain ⟨kv, hkv, q1, q2⟩ := mem_requested.1 hq
        obtain ⟨dims, units, a, i1, i2, i3, i4, i5⟩ := inv.entry kv hkv
        rw [q1] at i3; cases i3
        rw [i4 d hd] at hm; injection hm)
    obtain ⟨p, p1, p2, p3⟩ := hname nd n1
    exact ⟨_, p1, n2, _, a, p2, by rw [← p3]; exact n3, n4⟩

theorem prepare_wild {R : Registry} {g : Tracers} {c : Class} {i : Inst} {state : State} {raw : RawState}
    (h : prepare R g c i state = .ok raw) : ∃ wl, getWildcard state c.inProps = .ok wl := by
  unfold prepare at h
  obtain ⟨_, _, h⟩ := Exc.bind_ok_iff.1 h
  obtain ⟨_, h, _⟩ := Exc.bind_ok_iff.1 h
  unfold getNumpyArrays at h
  obtain ⟨wl, h, _⟩ := Exc.bind_ok_iff.1 h
  exact ⟨wl, h⟩

theorem checkRaw_fault {state : State} {inProps props : PropDict} {ign : List String}
    {raw : Dict NDArray} {e : Err} (h : checkRaw inProps props ign raw = .error e) :
    OutputFault state inProps props ign raw e := by
  rcases checkRaw_cases inProps props ign raw with ⟨h1, _⟩ | ⟨h1, h2⟩ | ⟨h1, _, h2⟩ <;>
    rw [h1] at h <;> cases h
  · exact h2
  · exact h2

theorem fulfils_faultless {L : String → Nat} {state : State} {inProps props : PropDict} {ign : List String}
    {raw : Dict NDArray} (hn : props.keys.Nodup) (h : Fulfils L state inProps props ign raw) (e : Err) :
    ¬ OutputFault state inProps props ign raw e := by
  intro hf
  have hmay : ∀ kv ∈ props, kv.1 ∉ ign → ∃ k ∈ raw.keys, MayReturn inProps kv.1 kv.2 k := by
    intro kv hkv hi
    obtain ⟨dims, a, _, h2, _⟩ := h.fits kv hkv hi
    exact ⟨_, Dict.mem_keys_of_get? h2, mayReturn_returnName (Dict.get?_of_mem hn hkv)⟩
  cases e with
  | missingOutput =>
    obtain ⟨kv, hkv, hi, hno⟩ := hf
    obtain ⟨k, h1, h2⟩ := hmay kv hkv hi
    exact hno k h1 h2
  | extraOutput =>
    obtain ⟨k, hk, hno⟩ := hf
    obtain ⟨kv, hkv, h1⟩ := h.only k hk
    exact hno kv hkv h1
  | keyError =>
    rcases hf with ⟨kv, hkv, hi, h1⟩ | ⟨kv, hkv, hi, dims, a, h1, h2, h3, h4⟩
    · obtain ⟨dims, a, _, h2, _⟩ := h.fits kv hkv hi
      rw [h1] at h2; cases h2
    · obtain ⟨dims', a', g1, g2, g3, _⟩ := h.fits kv hkv hi
      rw [h1] at g1; cases g1
      rw [h3] at g2; cases g2
      rw [g3] at h4
      simp [specShape] at h4
  | invalidPropertyDict =>
    obtain ⟨kv, hkv, hi, dims, a, h1, h2, h3⟩ := hf L h.agrees
    obtain ⟨dims', a', g1, g2, g3, _⟩ := h.fits kv hkv hi
    rw [h1] at g1; cases g1
    rw [h2] at g2; cases g2
    exact h3 g3
  | typeError =>
    obtain ⟨kv, hkv, hi, ⟨dims, h1, h2⟩, h3⟩ := hf
    obtain ⟨dims', a', g1, _, _, g4⟩ := h.fits kv hkv hi
    rw [h1] at g1; cases g1
    obtain ⟨ikv, m1, ds, m2, m3⟩ := g4 h2
    exact h3 ikv m1 ds m2 m3
  | _ => exact hf

/-- **C102, tendency components.**  If a call raises after `array_call` has returned
tendencies and diagnostics, what it returned has a fault of the kind of the exception. -/
theorem tendency_exception_explained {σ : Type} (R : Registry) (g : Tracers) (c : Class) (i : Inst)
    (state : State) (hwf : state.WF) (hp : i.packer = none)
    (ho : c.outProps.keys.Nodup) (hd : c.diagProps.keys.Nodup)
    (hao : Arranged c.inProps c.outProps) (had : Arranged c.inProps c.diagProps)
    (raw : RawState) (hprep : prepare R g c i state = .ok raw)
    (f : σ → RawState → σ × Except Err (Dict NDArray × Dict NDArray)) (s : σ) (e : Err)
    (h : (callTendency R g c i f s state).2 = .error e) :
    (f s raw).2 = .error e ∨ ∃ t d, (f s raw).2 = .ok (t, d) ∧
      (OutputFault state c.inProps c.outProps [] t e ∨
       OutputFault state c.inProps c.diagProps i.ignored d e) := by
  have hw := prepare_wild hprep
  unfold callTendency at h
  rw [hprep] at h
  dsimp only at h
  rcases Exc.bind_error_iff.1 h with h | ⟨⟨t, d⟩, hf, h⟩
  · exact .inl h
  refine .inr ⟨t, d, hf, ?_⟩
  unfold finishTendency takeTracers at h
  rw [hp] at h
  simp only [Exc.ok_bind] at h
  rcases Exc.bind_error_iff.1 h with h | ⟨_, _, h⟩
  · exact .inl (checkRaw_fault h)
  rcases Exc.bind_error_iff.1 h with h | ⟨_, _, h⟩
  · exact .inr (checkRaw_fault h)
  rcases Exc.bind_error_iff.1 h with h | ⟨_, _, h⟩
  · exact .inl (restore_error hwf ho hw hao h).2
  rcases Exc.bind_error_iff.1 h with h | ⟨_, _, h⟩
  · exact .inr (restore_error hwf hd hw had h).2
  · cases h

/-- **C102, Stepper** (without tendencies in diagnostics). -/
theorem stepper_exception_explained {σ : Type} (R : Registry) (g : Tracers) (c : Class) (i : Inst)
    (state : State) (hwf : state.WF) (hp : i.packer = none) (hi : i.tid = false) (hig : i.ignored = [])
    (ho : c.outProps.keys.Nodup) (hd : c.diagProps.keys.Nodup)
    (hao : Arranged c.inProps c.outProps) (had : Arranged c.inProps c.diagProps)
    (raw : RawState) (hprep : prepare R g c i state = .ok raw)
    (f : σ → RawState → Int → σ × Except Err (Dict NDArray × Dict NDArray)) (s : σ) (dt : Int) (e : Err)
    (h : (callStepper R g c i f s state dt).2 = .error e) :
    (f s raw dt).2 = .error e ∨ ∃ d n, (f s raw dt).2 = .ok (d, n) ∧
      (OutputFault state c.inProps c.diagProps [] d e ∨
       OutputFault state c.inProps c.outProps [] n e) := by
  have hw := prepare_wild hprep
  unfold callStepper at h
  rw [hprep] at h
  dsimp only at h
  rcases Exc.bind_error_iff.1 h with h | ⟨⟨d, n⟩, hf, h⟩
  · exact .inl h
  refine .inr ⟨d, n, hf, ?_⟩
  unfold finishStepper takeTracers at h
  rw [hp, hi, hig] at h
  simp only [Exc.ok_bind, Bool.false_eq_true, if_false] at h
  rcases Exc.bind_error_iff.1 h with h | ⟨_, _, h⟩
  · exact .inl (checkRaw_fault h)
  rcases Exc.bind_error_iff.1 h with h | ⟨_, _, h⟩
  · exact .inr (checkRaw_fault h)
  rcases Exc.bind_error_iff.1 h with h | ⟨_, _, h⟩
  · exact .inl (restore_error hwf hd hw had h).2
  rcases Exc.bind_error_iff.1 h with h | ⟨_, _, h⟩
  · exact .inr (restore_error hwf ho hw hao h).2
  · cases h

/-- **C102, DiagnosticComponent.** -/
theorem diagnostic_exception_explained {σ : Type} (R : Registry) (g : Tracers) (c : Class) (i : Inst)
    (state : State) (hwf : state.WF) (hig : i.ignored = [])
    (hd : c.diagProps.keys.Nodup) (had : Arranged c.inProps c.diagProps)
    (raw : RawState) (hprep : prepare R g c i state = .ok raw)
    (f : σ → RawState → σ × Except Err (Dict NDArray)) (s : σ) (e : Err)
    (h : (callDiagnostic R g c i f s state).2 = .error e) :
    (f s raw).2 = .error e ∨ ∃ d, (f s raw).2 = .ok d ∧
      OutputFault state c.inProps c.diagProps [] d e := by
  have hw := prepare_wild hprep
  unfold callDiagnostic at h
  rw [hprep] at h
  dsimp only at h
  rcases Exc.bind_error_iff.1 h with h | ⟨d, hf, h⟩
  · exact .inl h
  refine .inr ⟨d, hf, ?_⟩
  unfold finishDiagnostic at h
  rw [hig] at h
  rcases Exc.bind_error_iff.1 h with h | ⟨_, _, h⟩
  · exact checkRaw_fault h
  · exact (restore_error hwf hd hw had h).2

/-- **C102, what is declared is accepted.**  A component that returns what it declares does
not raise, whichever its kind. -/
theorem declared_outputs_accepted {σ : Type} (R : Registry) (g : Tracers) (c : Class) (i : Inst)
    (state : State) (hwf : state.WF) (hp : i.packer = none)
    (ho : c.outProps.keys.Nodup) (hd : c.diagProps.keys.Nodup)
    (hao : Arranged c.inProps c.outProps) (had : Arranged c.inProps c.diagProps)
    (raw : RawState) (hprep : prepare R g c i state = .ok raw) (s : σ) (L L' : String → Nat)
    (out diag : Dict NDArray)
    (hout : Fulfils L state c.inProps c.outProps [] out)
    (hdiag : Fulfils L' state c.inProps c.diagProps i.ignored diag) :
    (∀ f, (f s raw).2 = .ok (out, diag) → ∃ r, (callTendency R g c i f s state).2 = .ok r) ∧
    (i.tid = false → i.ignored = [] → ∀ f dt, (f s raw dt).2 = .ok (diag, out) →
      ∃ r, (callStepper R g c i f s state dt).2 = .ok r) ∧
    (i.ignored = [] → ∀ f, (f s raw).2 = .ok diag → ∃ r, (callDiagnostic R g c i f s state).2 = .ok r) := by
  refine ⟨fun f hf => ?_, fun hi hig f dt hf => ?_, fun hig f hf => ?_⟩
  · cases h : (callTendency R g c i f s state).2 with
    | ok r => exact ⟨r, rfl⟩
    | error e =>
      rcases tendency_exception_explained R g c i state hwf hp ho hd hao had raw hprep f s e h with
        h1 | ⟨t, d, h1, h2⟩
      · rw [hf] at h1; cases h1
      · rw [hf] at h1; cases h1
        rcases h2 with h2 | h2
        · exact absurd h2 (fulfils_faultless ho hout e)
        · exact absurd h2 (fulfils_faultless hd hdiag e)
  · rw [hig] at hdiag
    cases h : (callStepper R g c i f s state dt).2 with
    | ok r => exact ⟨r, rfl⟩
    | error e =>
      rcases stepper_exception_explained R g c i state hwf hp hi hig ho hd hao had raw hprep f s dt e h with
        h1 | ⟨t, d, h1, h2⟩
      · rw [hf] at h1; cases h1
      · rw [hf] at h1; cases h1
        rcases h2 with h2 | h2
        · exact absurd h2 (fulfils_faultless hd hdiag e)
        · exact absurd h2 (fulfils_faultless ho hout e)
  · rw [hig] at hdiag
    cases h : (callDiagnostic R g c i f s state).2 with
    | ok r => exact ⟨r, rfl⟩
    | error e =>
      rcases diagnostic_exception_explained R g c i state hwf hig hd had raw hprep f s e h with
        h1 | ⟨d, h1, h2⟩
      · rw [hf] at h1; cases h1
      · rw [hf] at h1; cases h1
        exact absurd h2 (fulfils_faultless hd hdiag e)

/-- Returned arrays with a missing, undeclared or misnamed quantity do not pass. -/
theorem restored_named {raw : Dict NDArray} {props : PropDict} {state : State} {inProps : PropDict}
    {ign ign' : List String} {u : Unit} {out : Dict DataArray} (hn : props.keys.Nodup)
    (h1 : checkRaw inProps props ign' raw = .ok u)
    (h2 : restoreDataArrays raw props state inProps ign false = .ok out) :
    ¬ Omitted inProps props ign' raw ∧ ¬ Undeclared inProps props raw ∧ ¬ Misnamed inProps props ign raw := by
  obtain ⟨c1, c2⟩ := checkRaw_ok.1 h1
  refine ⟨c1, c2, ?_⟩
  rintro ⟨kv, hkv, hi, hnone⟩
  unfold restoreDataArrays at h2
  obtain ⟨wl, hw, h2⟩ := Exc.bind_ok_iff.1 h2
  obtain ⟨ds, hds, h2⟩ := Exc.bind_ok_iff.1 h2
  simp only [Bool.false_eq_true, if_false] at hds h2
  obtain ⟨rest, e1, e2, e3, e4⟩ := extractOutDims_ok hds (by simpa using hn)
  simp only [List.nil_append] at e1
  subst e1
  obtain ⟨l1, _, _⟩ := restoreLoop_ok h2 (e4.nodup hn) (fun nd hnd => (e2 nd hnd).1)
  obtain ⟨d, _, hd⟩ := e3 kv hkv hi
  obtain ⟨da, lens, lens', _, _, hr⟩ := l1 _ hd
  obtain ⟨a, _, ha, _⟩ := hr.exists_raw
  rw [getAliasOrName_eq (Dict.mem_keys_of_mem hkv), hnone] at ha
  cases ha

/-- **C102, what is missing, undeclared or misnamed is never accepted.**  A call that
succeeds was given each declared quantity under the name it is looked up by, and nothing that is
not declared. -/
theorem accepted_outputs_named {σ : Type} (R : Registry) (g : Tracers) (c : Class) (i : Inst)
    (state : State) (hp : i.packer = none) (ho : c.outProps.keys.Nodup) (hd : c.diagProps.keys.Nodup)
    (raw : RawState) (hprep : prepare R g c i state = .ok raw) (s : σ) (out diag : Dict NDArray) :
    (∀ f r, (f s raw).2 = .ok (out, diag) → (callTendency R g c i f s state).2 = .ok r →
      (¬ Omitted c.inProps c.outProps [] out ∧ ¬ Undeclared c.inProps c.outProps out ∧
        ¬ Misnamed c.inProps c.outProps [] out) ∧
      ¬ Omitted c.inProps c.diagProps i.ignored diag ∧ ¬ Undeclared c.inProps c.diagProps diag ∧
        ¬ Misnamed c.inProps c.diagProps i.ignored diag) ∧
    (∀ f dt r, (f s raw dt).2 = .ok (diag, out) → (callStepper R g c i f s state dt).2 = .ok r →
      (¬ Omitted c.inProps c.outProps [] out ∧ ¬ Undeclared c.inProps c.outProps out ∧
        ¬ Misnamed c.inProps c.outProps [] out) ∧
      ¬ Omitted c.inProps c.diagProps i.ignored diag ∧ ¬ Undeclared c.inProps c.diagProps diag) ∧
    (∀ f r, (f s raw).2 = .ok diag → (callDiagnostic R g c i f s state).2 = .ok r →
      ¬ Omitted c.inProps c.diagProps i.ignored diag ∧ ¬ Undeclared c.inProps c.diagProps diag ∧
        ¬ Misnamed c.inProps c.diagProps [] diag) := by
  refine ⟨fun f r hf h => ?_, fun f dt r hf h => ?_, fun f r hf h => ?_⟩
  · unfold callTendency at h
    rw [hprep] at h
    dsimp only at h
    rw [hf, Exc.ok_bind] at h
    unfold finishTendency takeTracers at h
    rw [hp] at h
    simp only [Exc.ok_bind] at h
    obtain ⟨_, h1, h⟩ := Exc.bind_ok_iff.1 h
    obtain ⟨_, h2, h⟩ := Exc.bind_ok_iff.1 h
    obtain ⟨_, h3, h⟩ := Exc.bind_ok_iff.1 h
    obtain ⟨_, h4, h⟩ := Exc.bind_ok_iff.1 h
    exact ⟨restored_named ho h1 h3, restored_named hd h2 h4⟩
  · unfold callStepper at h
    rw [hprep] at h
    dsimp only at h
    rw [hf, Exc.ok_bind] at h
    unfold finishStepper takeTracers at h
    rw [hp] at h
    simp only [Exc.ok_bind] at h
    obtain ⟨_, h1, h⟩ := Exc.bind_ok_iff.1 h
    obtain ⟨_, h2, h⟩ := Exc.bind_ok_iff.1 h
    obtain ⟨_, h3, h⟩ := Exc.bind_ok_iff.1 h
    obtain ⟨_, h4, h⟩ := Exc.bind_ok_iff.1 h
    obtain ⟨_, h5, h⟩ := Exc.bind_ok_iff.1 h
    exact ⟨restored_named ho h2 h5, checkRaw_ok.1 h1⟩
  · unfold callDiagnostic at h
    rw [hprep] at h
    dsimp only at h
    rw [hf, Exc.ok_bind] at h
    unfold finishDiagnostic at h
    obtain ⟨_, h1, h⟩ := Exc.bind_ok_iff.1 h
    exact restored_named hd h1 h

/-- The arrays given to `array_call` have the lengths of the dims they are asked for. -/
theorem input_shape {R : Registry} {L : String → Nat} (hR : R.Faithful) {g : Tracers} {c : Class} {i : Inst} {state : State} {raw : RawState}
    (hp : i.packer = none) (hwf : state.WF) (hsf : state.StarFree) (hone : OneStar c.inProps)
    (hkeys : (c.inProps.map outName).Nodup) (hL : Agrees state c.inProps L)
    (h : prepare R g c i state = .ok raw) {kv : String × QProps} (hkv : kv ∈ c.inProps) {dims : List String}
    (hd : kv.2.dims = some dims)
    (hknown : ∀ d ∈ dims, d ≠ "*" → ∃ q ∈ requested state c.inProps, d ∈ q.1.dims) :
    ∃ a, raw.arrays.get? (outName kv) = some a ∧
      a.shape = specShape dims (wildSpec (requested state c.inProps)) L := by
  unfold prepare at h
  obtain ⟨_, _, h⟩ := Exc.bind_ok_iff.1 h
  obtain ⟨raw0, hraw, h⟩ := Exc.bind_ok_iff.1 h
  rw [hp] at h
  simp only [Exc.ok_bind] at h
  obtain ⟨t, _, h⟩ := Exc.bind_ok_iff.1 h
  cases h
  obtain ⟨wl, hw, inv, _, _, hall⟩ := getNumpyArrays_full hR hwf hsf hone hkeys hraw
  obtain ⟨dims', _, a, _, r, g1, _, _, _, g5, g6, _⟩ := hall kv hkv
  rw [hd] at g1; cases g1
  refine ⟨r, g5, ?_⟩
  have hlen : ∀ q ∈ requested state c.inProps, ∀ d ∈ q.1.dims, lenOr1 wl.2 d = L d := by
    intro q hq d hdq
    rw [hL q hq d hdq]
    exact (lenSpec_of_inv inv).1 q hq d hdq
  rw [g6]
  unfold specShape
  apply List.map_congr_left
  intro d hdm
  by_cases hs : d = "*"
  · rw [if_pos hs, if_pos hs]
    congr 1
    apply List.map_congr_left
    intro e he
    obtain ⟨q, hq, h1, _⟩ := mem_wildSpec.1 he
    exact hlen q hq e h1
  · rw [if_neg hs, if_neg hs]
    obtain ⟨q, hq, h1⟩ := hknown d hdm hs
    exact hlen q hq d h1

theorem insertDifferences_isOk {inst : String} {rawS rawN : Dict NDArray} {dt : Int} {names : List String}
    (h : ∀ n ∈ names, ∃ a b, rawN.get? n = some a ∧ rawS.get? n = some b ∧ a.shape = b.shape)
    (diag : Dict NDArray) : ∃ diag', insertDifferences inst rawS rawN dt names diag = .ok diag' := by
  induction names generalizing diag with
  | nil => exact ⟨_, rfl⟩
  | cons n names ih =>
    obtain ⟨a, b, h1, h2, h3⟩ := h n List.mem_cons_self
    obtain ⟨d, hd⟩ := zipWith_isOk (f := fun x y => (x - y) / seconds dt) h3
    unfold insertDifferences
    rw [Dict.get_eq_ok.2 h1, Exc.ok_bind, Dict.get_eq_ok.2 h2, Exc.ok_bind, hd, Exc.ok_bind]
    exact ih (fun n hn => h n (List.mem_cons_of_mem _ hn)) _

theorem specShape_agrees {state : State} {inProps : PropDict} {L L' : String → Nat} (h : Agrees state inProps L)
    (h' : Agrees state inProps L') {dims : List String}
    (hknown : ∀ d ∈ dims, d ≠ "*" → ∃ q ∈ requested state inProps, d ∈ q.1.dims) :
    specShape dims (wildSpec (requested state inProps)) L = specShape dims (wildSpec (requested state inProps)) L' := by
  have hlen : ∀ q ∈ requested state inProps, ∀ d ∈ q.1.dims, L d = L' d := by
    intro q hq d hdq
    rw [h q hq d hdq, h' q hq d hdq]
  unfold specShape
  apply List.map_congr_left
  intro d hdm
  by_cases hs : d = "*"
  · rw [if_pos hs, if_pos hs]
    congr 1
    apply List.map_congr_left
    intro e he
    obtain ⟨q, hq, h1, _⟩ := mem_wildSpec.1 he
    exact hlen q hq e h1
  · rw [if_neg hs, if_neg hs]
    obtain ⟨q, hq, h1⟩ := hknown d hdm hs
    exact hlen q hq d h1

theorem zipWith_shape {f : Rat → Rat → Rat} {a b c : NDArray} (hs : a.shape = b.shape)
    (h : NDArray.zipWith f a b = .ok c) : c.shape = a.shape := by
  unfold NDArray.zipWith at h
  rw [← hs, bcRev_self] at h
  cases h
  simp

/-- **C102, Stepper with tendencies in diagnostics.**  If neither the outputs nor the inputs of
those names have aliases, and the dims of the outputs are dims of inputs, then what is declared is
accepted as well; the tendencies themselves need not be returned. -/
theorem declared_outputs_accepted_with_tendencies {σ : Type} (R : Registry) (hR : R.Faithful) (g0 g1 g : Tracers)
    (c0 c : Class) (name : String) (i : Inst) (hmade : construct R g0 c0 true name = (g1, c, .ok i))
    (hk : c0.kind = .stepper) (ht : c0.usesTracers = false)
    (state : State) (hwf : state.WF) (hsf : state.StarFree) (hone : OneStar c.inProps)
    (hkeys : (c.inProps.map outName).Nodup)
    (ho : c.outProps.keys.Nodup) (hd : c.diagProps.keys.Nodup)
    (hao : Arranged c.inProps c.outProps) (had : Arranged c.inProps c.diagProps)
    (halias : ∀ kv ∈ c.outProps, kv.2.aliasName = none ∧ ∀ ip, c.inProps.get? kv.1 = some ip → ip.aliasName = none)
    (hnames : ∀ kv ∈ c.outProps, tendencyName kv.1 name ∉ Dict.keys c.inProps ∧ ∀ dkv ∈ c.diagProps,
      returnName c.inProps c.diagProps dkv.1 = tendencyName kv.1 name → dkv.1 = tendencyName kv.1 name)
    (hknown : ∀ kv ∈ c.outProps, ∀ dims, effDims c.inProps kv.1 kv.2 = some dims →
      ∀ d ∈ dims, d ≠ "*" → ∃ q ∈ requested state c.inProps, d ∈ q.1.dims)
    (raw : RawState) (hprep : prepare R g c i state = .ok raw) (s : σ) (L L' : String → Nat)
    (out diag : Dict NDArray) (hout : Fulfils L state c.inProps c.outProps [] out)
    (hdiag : Fulfils L' state c.inProps c.diagProps i.ignored diag)
    (f : σ → RawState → Int → σ × Except Err (Dict NDArray × Dict NDArray)) (dt : Int)
    (hf : (f s raw dt).2 = .ok (diag, out)) : ∃ r, (callStepper R g c i f s state dt).2 = .ok r := by
  obtain ⟨_, hin, htid, _, hins, hpk⟩ := construct_ok hmade
  have hn0 : c0.outProps.keys.Nodup := by
    have : c.outProps = c0.outProps := by
      have h := hins rfl
      unfold insertProps at h
      rw [hk] at h
      dsimp only at h
      rw [Prod.mk.injEq] at h
      rw [← h.1]
    rw [← this]; exact ho
  obtain ⟨hc, hig, hent⟩ := insertProps_stepper hk hn0 (hins rfl)
  have hco : c.outProps = c0.outProps := by rw [hc]
  have hp : i.packer = none := by
    unfold makePacker at hpk
    rw [if_neg (by rw [hc]; simp [ht])] at hpk
    rw [Prod.mk.injEq] at hpk
    injection hpk.2 with h
    exact h.symm
  have hw := prepare_wild hprep
  have hret : ∀ kv ∈ c.outProps, returnName c.inProps c.outProps kv.1 = kv.1 := by
    intro kv hkv
    obtain ⟨a1, a2⟩ := halias kv hkv
    unfold returnName
    rw [Dict.get?_of_mem ho hkv]
    dsimp only
    rw [a1]
    cases hi : c.inProps.get? kv.1 with
    | none => rfl
    | some ip => simp [a2 ip hi]
  -- outputs and inputs have the same shapes
  have hsame : ∀ n ∈ Dict.keys c.outProps, ∃ a b dims ip, out.get? n = some a ∧ raw.arrays.get? n = some b ∧
      a.shape = b.shape ∧ c.inProps.get? n = some ip ∧ ip.dims = some dims ∧
      a.shape = specShape dims (wildSpec (requested state c.inProps)) L ∧
      ∀ d ∈ dims, d ≠ "*" → ∃ q ∈ requested state c.inProps, d ∈ q.1.dims := by
    intro n hn
    obtain ⟨kv, hkv, rfl⟩ := List.mem_map.1 hn
    obtain ⟨dims, a, o1, o2, o3, _⟩ := hout.fits kv hkv (by simp)
    rw [hret kv hkv] at o2
    obtain ⟨d, u, ip, e1, e2, e3, e4, e5⟩ := hent kv (hco ▸ hkv)
    have hdd : d = dims := by
      unfold effDims at o1 e1
      rw [e3] at o1
      cases hpd : kv.2.dims with
      | some x => rw [hpd] at o1 e1; simp at o1 e1; rw [← o1, ← e1]
      | none => rw [hpd] at o1; simp [e4] at o1; exact o1
    subst hdd
    have hkn := hknown kv hkv d o1
    obtain ⟨b, b1, b2⟩ := input_shape hR hp hwf hsf hone hkeys hout.agrees hprep (Dict.mem_of_get? e3) e4 hkn
    have hname : outName (kv.1, ip) = kv.1 := by
      unfold outName
      rw [(halias kv hkv).2 ip e3]
      rfl
    rw [hname] at b1
    exact ⟨a, b, d, ip, o2, b1, by rw [o3, b2], e3, e4, o3, hkn⟩
  obtain ⟨diag', hdf⟩ := insertDifferences_isOk (inst := i.name) (rawS := raw.arrays) (rawN := out) (dt := dt)
    (names := Dict.keys c.outProps) (fun n hn => by
      obtain ⟨a, b, _, _, h1, h2, h3, _⟩ := hsame n hn
      exact ⟨a, b, h1, h2, h3⟩) diag
  obtain ⟨d1, d2⟩ := insertDifferences_ok ho hdf
  have hentry : ∀ n ∈ Dict.keys c.outProps, ∃ p dims, c.diagProps.get? (tendencyName n name) = some p ∧
      p.aliasName = none ∧ p.dims = some dims ∧ ∃ ip, c.inProps.get? n = some ip ∧ ip.dims = some dims := by
    intro n hn
    obtain ⟨kv, hkv, rfl⟩ := List.mem_map.1 hn
    obtain ⟨d, u, ip, e1, e2, e3, e4, e5⟩ := hent kv (hco ▸ hkv)
    refine ⟨{ dims := some d, units := some (perSecond u) }, d, ?_, rfl, rfl, ip, e3, e4⟩
    rw [hc]
    dsimp only
    have hnd : (inserted perSecond name c0.inProps c0.outProps).keys.Nodup := by
      exact nodup_keys_inserted hn0
    rw [Dict.get?_update _ _ hnd]
    have hm : (tendencyName kv.1 name, ({ dims := some d, units := some (perSecond u) } : QProps)) ∈
        inserted perSecond name c0.inProps c0.outProps := by
      unfold inserted
      refine List.mem_map.2 ⟨kv, hco ▸ hkv, ?_⟩
      rw [e1, e2]
      rfl
    rw [Dict.get?_of_mem hnd hm]
    rfl
  have hful : Fulfils L' state c.inProps c.diagProps [] diag' := by
    refine ⟨hdiag.agrees, fun kv hkv _ => ?_, fun k hk' => ?_⟩
    · by_cases hkt : ∃ n ∈ Dict.keys c.outProps, kv.1 = tendencyName n i.name
      · obtain ⟨n, hn, e⟩ := hkt
        obtain ⟨a, b, dims, ip, h1, h2, h3, h4, h5, h6, h7⟩ := hsame n hn
        obtain ⟨a', b', d', g1', g2, g3, g4⟩ := d1 n hn
        rw [h1] at g1'; cases g1'
        rw [h2] at g2; cases g2
        obtain ⟨p, dims', p1, p2, p3, ip', p4, p5⟩ := hentry n hn
        rw [h4] at p4; cases p4
        rw [h5] at p5; cases p5
        rw [← hin, ← e, Dict.get?_of_mem hd hkv] at p1
        injection p1 with p1
        refine ⟨dims, d', ?_, ?_, ?_, ?_⟩
        · unfold effDims; rw [p1, p3]; rfl
        · have hr : returnName c.inProps c.diagProps kv.1 = kv.1 := by
            unfold returnName
            rw [Dict.get?_of_mem hd hkv]
            dsimp only
            rw [p1, p2]
            have : c.inProps.get? kv.1 = none := by
              rw [e, hin]
              obtain ⟨okv, hokv, rfl⟩ := List.mem_map.1 hn
              exact (Dict.get?_eq_none_iff _ _).2 (hnames okv hokv).1
            rw [this]
            rfl
          rw [hr, e]; exact g4
        · rw [zipWith_shape h3 g3, h6]
          exact specShape_agrees hout.agrees hdiag.agrees h7
        · intro hs
          exact ⟨(n, ip), Dict.mem_of_get? h4, dims, h5, hs⟩
      · have hni : kv.1 ∉ i.ignored := by
          rw [hig]
          intro hm
          obtain ⟨n, hn, e⟩ := List.mem_map.1 hm
          exact hkt ⟨n, hco ▸ hn, by rw [hin, e]⟩
        obtain ⟨dims, a, f1, f2, f3, f4⟩ := hdiag.fits kv hkv hni
        refine ⟨dims, a, f1, ?_, f3, f4⟩
        by_cases hrt : ∃ n ∈ Dict.keys c.outProps, returnName c.inProps c.diagProps kv.1 = tendencyName n i.name
        · obtain ⟨n, hn, e⟩ := hrt
          obtain ⟨okv, hokv, rfl⟩ := List.mem_map.1 hn
          rw [hin] at e
          exact absurd ⟨okv.1, hn, by rw [hin]; exact (hnames okv hokv).2 kv hkv e⟩ hkt
        · rw [d2 _ (fun x hx e => hrt ⟨x, hx, e⟩)]
          exact f2
    · by_cases hkt : ∃ n ∈ Dict.keys c.outProps, k = tendencyName n i.name
      · obtain ⟨n, hn, rfl⟩ := hkt
        obtain ⟨p, _, p1, _⟩ := hentry n hn
        exact ⟨_, Dict.mem_of_get? p1, .inl (by rw [hin])⟩
      · apply hdiag.only
        have := d2 k (fun x hx e => hkt ⟨x, hx, e⟩)
        obtain ⟨v, hv⟩ := Dict.get?_of_mem_keys hk'
        rw [this] at hv
        exact Dict.mem_keys_of_get? hv
  have hck : checkRaw c.inProps c.diagProps i.ignored diag = .ok () :=
    checkRaw_ok.2 ⟨fulfils_faultless hd hdiag .missingOutput, fulfils_faultless hd hdiag .extraOutput⟩
  have hck' : checkRaw c.inProps c.outProps [] out = .ok () :=
    checkRaw_ok.2 ⟨fulfils_faultless ho hout .missingOutput, fulfils_faultless ho hout .extraOutput⟩
  have hok : ∀ {props : PropDict} {l : String → Nat} {r : Dict NDArray}, props.keys.Nodup → Arranged c.inProps props →
      Fulfils l state c.inProps props [] r → ∃ x, restoreDataArrays r props state c.inProps [] false = .ok x := by
    intro props l r hpn hpa hpf
    cases hr : restoreDataArrays r props state c.inProps [] false with
    | ok x => exact ⟨x, rfl⟩
    | error e => exact absurd (restore_error hwf hpn hw hpa hr).2 (fulfils_faultless hpn hpf e)
  obtain ⟨x, hx⟩ := hok hd had hful
  obtain ⟨y, hy⟩ := hok ho hao hout
  unfold callStepper
  rw [hprep]
  dsimp only
  rw [hf, Exc.ok_bind]
  unfold finishStepper takeTracers
  rw [hp, htid]
  simp only [Exc.ok_bind, hck, hck', if_true, hdf, hx, hy]
  exact ⟨_, rfl⟩

namespace Demo

/-- A stepper of T with tendencies in diagnostics which doubles T and returns nothing else. -/
def doubling (s : Unit) (raw : RawState) (_ : Int) : Unit × Except Err (Dict NDArray × Dict NDArray) :=
  (s, raw.arrays.get "T" >>= fun a => .ok ([], [("T", ⟨a.shape, fun ix => 2 * a.get ix⟩)]))

def doublingCls : Class :=
  { kind := .stepper, inProps := [], diagProps := []
    outProps := [("T", { dims := some ["*", "z"], units := some "K" })] }

end Demo

/-- Such a stepper is constructed and its calls succeed. -/
example :
    (match construct Demo.reg {} Demo.doublingCls true "D" with
     | (g, c, .ok i) => Exc.test (callStepper Demo.reg g c i Demo.doubling () Demo.state 1000000).2 (fun r =>
        decide ((r.1.get? "T_tendency_from_D").map (fun a => (a.dims, a.arr.shape)) = some (["x", "y", "z"], [2, 2, 3])))
     | _ => false) = true := by
  decide +kernel

namespace Demo

/-- A diagnostic on the columns of T and on a dimension `q` of its own, returned as `qq`. -/
def columnsCls : Class :=
  { kind := .diagnostic, inProps := [("T", { dims := some ["z", "*"], units := some "K" })], outProps := []
    diagProps := [("Q", { dims := some ["*", "q"], units := some "m", aliasName := some "qq" })] }

def columnsInst : Inst := { name := "Columns", tid := false, ignored := [], packer := none }

def returning (d : Dict NDArray) (s : Unit) (_ : RawState) : Unit × Except Err (Dict NDArray) := (s, .ok d)

def columnsCall (d : Dict NDArray) : Except Err (Dict DataArray) :=
  (callDiagnostic reg {} columnsCls columnsInst (returning d) () state).2

end Demo

/-- An array with the four columns of T and any number of `q` is accepted under the alias; nothing,
an unknown name beside it, the full name, three columns, one axis each raise. -/
example :
    (Exc.test (Demo.columnsCall [("qq", NDArray.zeros [4, 7])]) (fun r =>
      decide ((r.get? "Q").map (fun a => (a.dims, a.arr.shape)) = some (["x", "y", "q"], [2, 2, 7]))) &&
    Exc.failsWith (Demo.columnsCall []) .missingOutput &&
    Exc.failsWith (Demo.columnsCall [("qq", NDArray.zeros [4, 7]), ("other", NDArray.zeros [4])]) .extraOutput &&
    Exc.failsWith (Demo.columnsCall [("Q", NDArray.zeros [4, 7])]) .keyError &&
    Exc.failsWith (Demo.columnsCall [("qq", NDArray.zeros [3, 7])]) .invalidPropertyDict &&
    Exc.failsWith (Demo.columnsCall [("qq", NDArray.zeros [4])]) .keyError) = true := by
  decide +kernel

/-- The hypotheses of C102 hold there. -/
example : Arranged Demo.columnsCls.inProps Demo.columnsCls.diagProps ∧
    Fulfils (fun d => if d = "q" then 7 else if d = "z" then 3 else 2) Demo.state Demo.columnsCls.inProps
      Demo.columnsCls.diagProps [] [("qq", NDArray.zeros [4, 7])] := by
  refine ⟨fun kv hkv => ?_, ⟨fun q hq d hd => ?_, fun kv hkv _ => ?_, fun k hk => ?_⟩⟩
  · rw [List.mem_singleton.1 hkv]
    exact ⟨⟨_, rfl⟩, ["*", "q"], rfl, by decide⟩
  · have hreq : requested Demo.state Demo.columnsCls.inProps = [(Demo.temp, ["z", "*"])] := rfl
    rw [hreq] at hq
    rw [List.mem_singleton.1 hq] at hd ⊢
    revert d
    decide +kernel
  · rw [List.mem_singleton.1 hkv]
    exact ⟨["*", "q"], _, rfl, rfl, by decide +kernel, fun _ => ⟨_, List.mem_singleton.2 rfl, _, rfl, by decide⟩⟩
  · rw [List.mem_singleton.1 hk]
    exact ⟨_, List.mem_singleton.2 rfl, .inr (.inl rfl)⟩

/-- A wildcard that no input has. -/
example : Exc.failsWith ((callDiagnostic Demo.reg {}
    { Demo.columnsCls with inProps := [("T", { dims := some ["x", "z", "y"], units := some "K" })] } Demo.columnsInst
    (Demo.returning [("qq", NDArray.zeros [4, 7])]) () Demo.state).2) .typeError = true := by
  decide +kernel

/-- **C102, an array with too few axes is a KeyError.**  The documentation of
`restore_data_arrays_with_properties` promises InvalidPropertyDictError for incompatible shapes
(restore_dataarray.py:84-89); with a wildcard and a dimension that the inputs do not have, an
array with too few axes raises KeyError, although it is returned under the right name. -/
theorem few_axes_is_key_error : ∃ (R : Registry) (c : Class) (i : Inst) (state : State) (d : Dict NDArray),
    R.Faithful ∧ state.WF ∧ state.StarFree ∧ Arranged c.inProps c.diagProps ∧
    ¬ Omitted c.inProps c.diagProps [] d ∧ ¬ Undeclared c.inProps c.diagProps d ∧
    ¬ Misnamed c.inProps c.diagProps [] d ∧ Misfits state c.inProps c.diagProps [] d ∧
    (callDiagnostic R {} c i (fun (s : Unit) _ => (s, .ok d)) () state).2 = .error .keyError := by
  have hsf : Demo.state.StarFree := by
    intro n a h
    have := Dict.mem_of_get? h
    simp only [Demo.state, List.mem_cons, Prod.mk.injEq, List.not_mem_nil, or_false] at this
    rcases this with ⟨-, h⟩ | ⟨-, h⟩ | ⟨-, h⟩ <;> cases h <;> decide
  refine ⟨Demo.reg, Demo.columnsCls, Demo.columnsInst, Demo.state, [("qq", NDArray.zeros [4])], Demo.reg_faithful,
    Demo.state_wf, hsf, ?_, ?_, ?_, ?_, ?_, ?_⟩
  · intro kv hkv
    rw [List.mem_singleton.1 hkv]
    exact ⟨⟨_, rfl⟩, ["*", "q"], rfl, by decide⟩
  · rintro ⟨kv, hkv, _, h⟩
    rw [List.mem_singleton.1 hkv] at h
    exact h "qq" (by decide) (.inr (.inl rfl))
  · rintro ⟨k, hk, h⟩
    exact h _ (List.mem_singleton.2 rfl) (by rw [List.mem_singleton.1 hk]; exact .inr (.inl rfl))
  · rintro ⟨kv, hkv, _, h⟩
    rw [List.mem_singleton.1 hkv] at h
    cases h
  · intro L _
    refine ⟨_, List.mem_singleton.2 rfl, by simp, ["*", "q"], NDArray.zeros [4], rfl, rfl, fun h => ?_⟩
    have := congrArg List.length h
    simp [NDArray.zeros, specShape] at this
  · exact Exc.failsWith_error (by decide +kernel)

end Verif

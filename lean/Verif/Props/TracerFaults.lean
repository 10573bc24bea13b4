import Verif.Spec.TracerFaults
import Verif.Props.OutputFaults
import Verif.Props.TracerComponents
/-!
# C102 for components with tracers
-/

namespace Verif

theorem readSlices_error {arr : NDArray} {k : Nat} {l : List String} {i : Nat} {raw0 : Dict NDArray} {e : Err}
    (h : readSlices arr k l i raw0 = .error e) : e = .indexError := by
  induction l generalizing i raw0 with
  | nil => cases h
  | cons n l ih =>
    unfold readSlices at h
    rcases Exc.bind_error_iff.1 h with h | ⟨_, _, h⟩
    · unfold readSlice at h
      split at h
      · cases h; rfl
      · split at h
        · cases h
        · cases h; rfl
    · exact ih h

/-- Every slice read has the shape of the array without the tracer axis, and the axis is there. -/
theorem readSlices_slices {arr : NDArray} {k : Nat} {l : List String} {i : Nat} {raw0 raw : Dict NDArray}
    (h : readSlices arr k l i raw0 = .ok raw) {n : String} (hn : n ∈ l) :
    k < arr.shape.length ∧ ∃ j, raw.get? n = some (arr.slice k j) := by
  induction l generalizing i raw0 with
  | nil => cases hn
  | cons m l ih =>
    unfold readSlices at h
    obtain ⟨s, hs, h⟩ := Exc.bind_ok_iff.1 h
    by_cases hl : n ∈ l
    · exact ih h hl
    · have hm : n = m := by rcases List.mem_cons.1 hn with h | h; exact h; exact absurd h hl
      subst hm
      have hkeep : ∀ {l : List String} {i : Nat} {r0 : Dict NDArray}, n ∉ l → readSlices arr k l i r0 = .ok raw →
          raw.get? n = r0.get? n := by
        intro l
        induction l with
        | nil => intro i r0 _ h; cases h; rfl
        | cons x l ih2 =>
          intro i r0 hx h
          unfold readSlices at h
          obtain ⟨t, _, h⟩ := Exc.bind_ok_iff.1 h
          rw [List.mem_cons, not_or] at hx
          rw [ih2 hx.2 h, Dict.get?_set_ne _ _ (Ne.symm hx.1)]
      unfold readSlice at hs
      split at hs
      · cases hs
      · rename_i m hm
        split at hs
        · cases hs
          exact ⟨(List.getElem?_eq_some_iff.1 hm).1, i, by rw [hkeep hl h, Dict.get?_set_self]⟩
        · cases hs

/-- An exception of unpacking what was returned as `tracers` has its fault. -/
theorem takeTracers_error {R : Registry} {ops : List TOp} {c : Class} {i : Inst} {p : Packer} {state : State}
    {raw : RawState} {out : Dict NDArray} {m : String} {e : Err} (hwf : state.WF) (hp : i.packer = some p)
    (hdims : p.dims.count "tracer" = 1) (hstar : p.dims.count "*" ≤ 1) (hpre : (p.prepend.map (·.1)).Nodup)
    (hprep : prepare R (runOps R {} ops) c i state = .ok raw)
    (h : takeTracers (runOps R {} ops) i out state m = .error e) :
    TracerFault (runOps R {} ops) p state out e := by
  obtain ⟨hg1, hg2⟩ := tracer_globals_consistent R ops {} (by simp) (by simp)
  obtain ⟨t, hpack, -⟩ := prepare_tracers hp hprep
  generalize runOps R {} ops = g at *
  have htr : "tracer" ∈ p.dims := List.count_pos_iff.1 (by omega)
  have hq : (p.dims.erase "tracer").erase "tracer" = p.dims.erase "tracer" :=
    List.erase_of_not_mem (not_mem_erase_of_count hdims)
  have hcount : (p.dims.erase "tracer").count "*" ≤ 1 := by
    rw [List.count_erase_of_ne (by decide)]; exact hstar
  have hnm := mem_tracerNames hg2 p
  have hnd := nodup_tracerNames g p hpre
  unfold takeTracers at h
  rw [hp] at h
  dsimp only at h
  rcases Exc.bind_error_iff.1 h with h | ⟨a, ha, h⟩
  · obtain ⟨rfl, hnone⟩ := dict_get_error h
    exact .inl hnone
  have ha := Dict.get_eq_ok.1 ha
  rcases Exc.bind_error_iff.1 h with h | ⟨_, _, h⟩
  swap
  · cases h
  unfold Packer.unpack at h
  rw [quantityDims_ok htr, Exc.ok_bind] at h
  dsimp only at h
  rcases Exc.bind_error_iff.1 h with h | ⟨sl, hsl, h⟩
  · cases readSlices_error h
    refine ⟨a, ha, fun n hn => ?_⟩
    by_contra hle
    obtain ⟨r, hr, -⟩ := readSlices_ok hn (l := tracerNames g p) (i := 0) (raw0 := []) (by omega) hnd
    unfold Packer.index at h
    rw [h] at hr
    cases hr
  · have hwild : ∃ wl, getWildcard state (tracerReq g p) = .ok wl := by
      unfold Packer.pack at hpack
      rw [quantityDims_ok htr, Exc.ok_bind] at hpack
      obtain ⟨_, hr, _⟩ := Exc.bind_ok_iff.1 hpack
      unfold getNumpyArrays at hr
      obtain ⟨wl, hr, _⟩ := Exc.bind_ok_iff.1 hr
      exact ⟨wl, hr⟩
    change restoreDataArrays sl ((tracerReq g p).mapVal fun q => { q with units := q.units.map (mulUnit · m) }) state
      (tracerReq g p) [] false = .error e at h
    -- what the properties of the outputs are
    have hent : ∀ kv ∈ ((tracerReq g p).mapVal fun q => ({ q with units := q.units.map (mulUnit · m) } : QProps)),
        kv.1 ∈ tracerNames g p ∧ ∃ u, kv.2 = { dims := some (p.dims.erase "tracer"), units := some u } := by
      intro kv hkv
      have hk : kv.1 ∈ (tracerReq g p).keys := by
        have := Dict.mem_keys_of_mem hkv
        rwa [Dict.keys_mapVal] at this
      refine ⟨(hnm kv.1).2 hk, ?_⟩
      obtain ⟨kv', hkv', rfl⟩ := List.mem_map.1 hkv
      obtain ⟨u, hu⟩ := tracerProps_mem hkv'
      exact ⟨mulUnit u m, by simp only [hu, Option.map_some, hq]⟩
    have hin : ∀ kv ∈ tracerReq g p, ∃ u, kv.2 = { dims := some (p.dims.erase "tracer"), units := some u } := by
      intro kv hkv
      obtain ⟨u, hu⟩ := tracerProps_mem hkv
      exact ⟨u, by rw [hu, hq]⟩
    have hkeys : ((tracerReq g p).mapVal fun q => ({ q with units := q.units.map (mulUnit · m) } : QProps)).keys =
      (tracerReq g p).keys := Dict.keys_mapVal _ _
    have hnod : ((tracerReq g p).mapVal fun q => ({ q with units := q.units.map (mulUnit · m) } : QProps)).keys.Nodup := by
      rw [hkeys]; exact tracerProps_nodup _ _ _
    generalize ((tracerReq g p).mapVal fun q => ({ q with units := q.units.map (mulUnit · m) } : QProps)) = props at *
    have heff : ∀ kv ∈ props, effDims (tracerReq g p) kv.1 kv.2 = some (p.dims.erase "tracer") := by
      intro kv hkv
      obtain ⟨_, u, hu⟩ := hent kv hkv
      simp [effDims, hu]
    have hret : ∀ kv ∈ props, returnName (tracerReq g p) props kv.1 = kv.1 := by
      intro kv hkv
      obtain ⟨_, u, hu⟩ := hent kv hkv
      unfold returnName
      rw [Dict.get?_of_mem hnod hkv, hu]
      dsimp only [Option.getD]
      cases hi : (tracerReq g p).get? kv.1 with
      | none => rfl
      | some q =>
        obtain ⟨v, hv⟩ := hin _ (Dict.mem_of_get? hi)
        dsimp only at hv
        rw [hv]
        rfl
    have harr : Arranged (tracerReq g p) props := fun kv hkv => by
      obtain ⟨_, u, hu⟩ := hent kv hkv
      exact ⟨⟨u, by rw [hu]⟩, _, heff kv hkv, hcount⟩
    have hslice : ∀ kv ∈ props, p.dims.idxOf "tracer" < a.shape.length ∧
        ∃ j, sl.get? kv.1 = some (a.slice (p.dims.idxOf "tracer") j) := fun kv hkv =>
      readSlices_slices hsl (hent kv hkv).1
    obtain ⟨hcase, hfault⟩ := restore_error hwf hnod hwild harr h
    rcases hcase with rfl | rfl | rfl
    · rcases hfault with ⟨kv, hkv, _, hnone⟩ | ⟨kv, hkv, _, dims, b, h1, h2, h3, h4⟩
      · rw [hret kv hkv] at hnone
        obtain ⟨_, j, hj⟩ := hslice kv hkv
        rw [hnone] at hj
        cases hj
      · rw [heff kv hkv] at h1
        cases h1
        rw [hret kv hkv] at h3
        obtain ⟨hlt, j, hj⟩ := hslice kv hkv
        rw [hj] at h3
        cases h3
        refine .inr ⟨a, ha, List.mem_of_mem_erase h2, ?_⟩
        have e1 : (a.slice (p.dims.idxOf "tracer") j).shape.length = a.shape.length - 1 := by
          show (a.shape.eraseIdx _).length = _
          rw [List.length_eraseIdx, if_pos hlt]
        rw [e1, List.length_erase_of_mem htr] at h4
        omega
    · obtain ⟨kv, hkv, _, ⟨dims, h1, h2⟩, h3⟩ := hfault
      rw [heff kv hkv] at h1
      cases h1
      obtain ⟨q, hq'⟩ := Dict.get?_of_mem_keys ((hnm kv.1).1 (hent kv hkv).1)
      obtain ⟨v, hv⟩ := hin _ (Dict.mem_of_get? hq')
      dsimp only at hv
      exact h3 _ (Dict.mem_of_get? hq') _ (by rw [hv]) h2
    · refine ⟨a, ha, fun L hL => ?_⟩
      obtain ⟨kv, hkv, _, dims, b, h1, h2, h3⟩ := hfault L hL
      rw [heff kv hkv] at h1
      cases h1
      rw [hret kv hkv] at h2
      obtain ⟨_, j, hj⟩ := hslice kv hkv
      rw [hj] at h2
      cases h2
      exact h3

/-- **C102, tendency components with tracers.**  If a call raises after `array_call` has
returned, the tendencies other than the tracers, the diagnostics or the array of the tracers have a
fault of the kind of the exception. -/
theorem tracer_tendency_exception_explained {σ : Type} (R : Registry) (ops : List TOp) (c : Class) (i : Inst) (p : Packer)
    (state : State) (hwf : state.WF) (hp : i.packer = some p)
    (hdims : p.dims.count "tracer" = 1) (hstar : p.dims.count "*" ≤ 1) (hpre : (p.prepend.map (·.1)).Nodup)
    (ho : c.outProps.keys.Nodup) (hd : c.diagProps.keys.Nodup)
    (hao : Arranged c.inProps c.outProps) (had : Arranged c.inProps c.diagProps)
    (raw : RawState) (hprep : prepare R (runOps R {} ops) c i state = .ok raw)
    (f : σ → RawState → σ × Except Err (Dict NDArray × Dict NDArray)) (s : σ) (e : Err)
    (h : (callTendency R (runOps R {} ops) c i f s state).2 = .error e) :
    (f s raw).2 = .error e ∨ ∃ t d, (f s raw).2 = .ok (t, d) ∧
      (TracerFault (runOps R {} ops) p state t e ∨
       OutputFault state c.inProps c.outProps [] (t.erase "tracers") e ∨
       OutputFault state c.inProps c.diagProps i.ignored d e) := by
  have hw := prepare_wild hprep
  unfold callTendency at h
  rw [hprep] at h
  dsimp only at h
  rcases Exc.bind_error_iff.1 h with h | ⟨⟨t, d⟩, hf, h⟩
  · exact .inl h
  refine .inr ⟨t, d, hf, ?_⟩
  unfold finishTendency at h
  rcases Exc.bind_error_iff.1 h with h | ⟨tr, htr, h⟩
  · exact .inl (takeTracers_error hwf hp hdims hstar hpre hprep h)
  have hrest : tr.2 = t.erase "tracers" := by
    unfold takeTracers at htr
    rw [hp] at htr
    dsimp only at htr
    obtain ⟨_, _, htr⟩ := Exc.bind_ok_iff.1 htr
    obtain ⟨_, _, htr⟩ := Exc.bind_ok_iff.1 htr
    cases htr
    rfl
  rw [hrest] at h
  refine .inr ?_
  rcases Exc.bind_error_iff.1 h with h | ⟨_, _, h⟩
  · exact .inl (checkRaw_fault h)
  rcases Exc.bind_error_iff.1 h with h | ⟨_, _, h⟩
  · exact .inr (checkRaw_fault h)
  rcases Exc.bind_error_iff.1 h with h | ⟨_, _, h⟩
  · exact .inl (restore_error hwf ho hw hao h).2
  rcases Exc.bind_error_iff.1 h with h | ⟨_, _, h⟩
  · exact .inr (restore_error hwf hd hw had h).2
  · cases h

/-- **C102, Stepper with tracers** (without tendencies in diagnostics). -/
theorem tracer_stepper_exception_explained {σ : Type} (R : Registry) (ops : List TOp) (c : Class) (i : Inst) (p : Packer)
    (state : State) (hwf : state.WF) (hp : i.packer = some p) (hi : i.tid = false) (hig : i.ignored = [])
    (hdims : p.dims.count "tracer" = 1) (hstar : p.dims.count "*" ≤ 1) (hpre : (p.prepend.map (·.1)).Nodup)
    (ho : c.outProps.keys.Nodup) (hd : c.diagProps.keys.Nodup)
    (hao : Arranged c.inProps c.outProps) (had : Arranged c.inProps c.diagProps)
    (raw : RawState) (hprep : prepare R (runOps R {} ops) c i state = .ok raw)
    (f : σ → RawState → Int → σ × Except Err (Dict NDArray × Dict NDArray)) (s : σ) (dt : Int) (e : Err)
    (h : (callStepper R (runOps R {} ops) c i f s state dt).2 = .error e) :
    (f s raw dt).2 = .error e ∨ ∃ d n, (f s raw dt).2 = .ok (d, n) ∧
      (TracerFault (runOps R {} ops) p state n e ∨
       OutputFault state c.inProps c.diagProps [] d e ∨
       OutputFault state c.inProps c.outProps [] (n.erase "tracers") e) := by
  have hw := prepare_wild hprep
  unfold callStepper at h
  rw [hprep] at h
  dsimp only at h
  rcases Exc.bind_error_iff.1 h with h | ⟨⟨d, n⟩, hf, h⟩
  · exact .inl h
  refine .inr ⟨d, n, hf, ?_⟩
  unfold finishStepper at h
  rcases Exc.bind_error_iff.1 h with h | ⟨tr, htr, h⟩
  · exact .inl (takeTracers_error hwf hp hdims hstar hpre hprep h)
  have hrest : tr.2 = n.erase "tracers" := by
    unfold takeTracers at htr
    rw [hp] at htr
    dsimp only at htr
    obtain ⟨_, _, htr⟩ := Exc.bind_ok_iff.1 htr
    obtain ⟨_, _, htr⟩ := Exc.bind_ok_iff.1 htr
    cases htr
    rfl
  rw [hrest, hi, hig] at h
  simp only [Exc.ok_bind, Bool.false_eq_true, if_false] at h
  refine .inr ?_
  rcases Exc.bind_error_iff.1 h with h | ⟨_, _, h⟩
  · exact .inl (checkRaw_fault h)
  rcases Exc.bind_error_iff.1 h with h | ⟨_, _, h⟩
  · exact .inr (checkRaw_fault h)
  rcases Exc.bind_error_iff.1 h with h | ⟨_, _, h⟩
  · exact .inl (restore_error hwf hd hw had h).2
  rcases Exc.bind_error_iff.1 h with h | ⟨_, _, h⟩
  · exact .inr (restore_error hwf ho hw hao h).2
  · cases h

/-- **C102, what is declared is accepted, with tracers.**  A component that returns what it
declares and an array of the tracers of the shape of those of the state does not raise.  Neither
does one whose array has further positions on the tracer axis (`hmore`), although they belong to
no tracer and are dropped. -/
theorem declared_outputs_accepted_with_tracers {σ : Type} (R : Registry) (ops : List TOp) (c : Class) (i : Inst) (p : Packer)
    (state : State) (hwf : state.WF) (hp : i.packer = some p)
    (hdims : p.dims.count "tracer" = 1) (hstar : p.dims.count "*" ≤ 1) (hpre : (p.prepend.map (·.1)).Nodup)
    (ho : c.outProps.keys.Nodup) (hd : c.diagProps.keys.Nodup)
    (hao : Arranged c.inProps c.outProps) (had : Arranged c.inProps c.diagProps)
    (raw : RawState) (hprep : prepare R (runOps R {} ops) c i state = .ok raw) (s : σ) (L L' L'' : String → Nat)
    (out diag : Dict NDArray) (t : NDArray) (n : Nat)
    (htr : out.get? "tracers" = some t) (hL : Agrees state (tracerReq (runOps R {} ops) p) L)
    (hmore : (tracerNames (runOps R {} ops) p).length ≤ n)
    (hshape : t.shape = tracerShape p.dims (wildSpec (requested state (tracerReq (runOps R {} ops) p))) L n)
    (hout : Fulfils L' state c.inProps c.outProps [] (out.erase "tracers"))
    (hdiag : Fulfils L'' state c.inProps c.diagProps i.ignored diag) :
    (∀ f, (f s raw).2 = .ok (out, diag) → ∃ r, (callTendency R (runOps R {} ops) c i f s state).2 = .ok r) ∧
    (i.tid = false → i.ignored = [] → ∀ f dt, (f s raw dt).2 = .ok (diag, out) →
      ∃ r, (callStepper R (runOps R {} ops) c i f s state dt).2 = .ok r) := by
  have hmem : "tracer" ∈ p.dims := List.count_pos_iff.1 (by omega)
  have hno : ∀ e, ¬ TracerFault (runOps R {} ops) p state out e := by
    intro e hf
    cases e with
    | keyError =>
      rcases hf with h | ⟨a, h1, _, h2⟩
      · rw [htr] at h; cases h
      · rw [htr] at h1; cases h1
        rw [hshape] at h2
        unfold tracerShape at h2
        rw [List.length_map] at h2
        exact absurd h2 (Nat.lt_irrefl _)
    | indexError =>
      obtain ⟨a, h1, h2⟩ := hf
      rw [htr] at h1; cases h1
      have := h2 n (by
        rw [hshape]; unfold tracerShape
        rw [getElem?_map_idxOf hmem]; simp)
      omega
    | invalidPropertyDict =>
      obtain ⟨a, h1, h2⟩ := hf
      rw [htr] at h1; cases h1
      refine h2 L hL ?_
      rw [hshape]
      unfold tracerShape specShape
      refine eraseIdx_map hdims _ _ fun d _ hd => ?_
      rw [if_neg hd]
    | _ => exact hf
  refine ⟨fun f hf => ?_, fun hi hig f dt hf => ?_⟩
  · cases h : (callTendency R (runOps R {} ops) c i f s state).2 with
    | ok r => exact ⟨r, rfl⟩
    | error e =>
      rcases tracer_tendency_exception_explained R ops c i p state hwf hp hdims hstar hpre ho hd hao had raw hprep f s e h with
        h1 | ⟨t, d, h1, h2⟩
      · rw [hf] at h1; cases h1
      · rw [hf] at h1; cases h1
        rcases h2 with h2 | h2 | h2
        · exact absurd h2 (hno e)
        · exact absurd h2 (fulfils_faultless ho hout e)
        · exact absurd h2 (fulfils_faultless hd hdiag e)
  · rw [hig] at hdiag
    cases h : (callStepper R (runOps R {} ops) c i f s state dt).2 with
    | ok r => exact ⟨r, rfl⟩
    | error e =>
      rcases tracer_stepper_exception_explained R ops c i p state hwf hp hi hig hdims hstar hpre ho hd hao had raw hprep f s dt
        e h with h1 | ⟨t, d, h1, h2⟩
      · rw [hf] at h1; cases h1
      · rw [hf] at h1; cases h1
        rcases h2 with h2 | h2 | h2
        · exact absurd h2 (hno e)
        · exact absurd h2 (fulfils_faultless hd hdiag e)
        · exact absurd h2 (fulfils_faultless ho hout e)

/-- What unpacking without an exception tells about the array of the tracers. -/
theorem takeTracers_enough {g : Tracers} {i : Inst} {p : Packer} {state : State} {out : Dict NDArray} {m : String}
    {r : Dict DataArray × Dict NDArray} (hp : i.packer = some p) (h : takeTracers g i out state m = .ok r) :
    r.2 = out.erase "tracers" ∧ ∃ t, out.get? "tracers" = some t ∧
      (tracerNames g p ≠ [] → ∃ n, t.shape[p.dims.idxOf "tracer"]? = some n ∧ (tracerNames g p).length ≤ n) := by
  unfold takeTracers at h
  rw [hp] at h
  dsimp only at h
  obtain ⟨t, ht, h⟩ := Exc.bind_ok_iff.1 h
  obtain ⟨_, hu, h⟩ := Exc.bind_ok_iff.1 h
  cases h
  refine ⟨rfl, t, Dict.get_eq_ok.1 ht, ?_⟩
  unfold Packer.unpack at hu
  obtain ⟨_, _, hu⟩ := Exc.bind_ok_iff.1 hu
  obtain ⟨_, hs, _⟩ := Exc.bind_ok_iff.1 hu
  have key : ∀ {l : List String} {j : Nat} {r0 r1 : Dict NDArray}, readSlices t p.index l j r0 = .ok r1 → l ≠ [] →
      ∃ n, t.shape[p.index]? = some n ∧ j + l.length ≤ n := by
    intro l
    induction l with
    | nil => intro j r0 r1 _ h; exact absurd rfl h
    | cons a l ih =>
      intro j r0 r1 h _
      unfold readSlices at h
      obtain ⟨s, hs, h⟩ := Exc.bind_ok_iff.1 h
      unfold readSlice at hs
      split at hs
      · cases hs
      · rename_i n hn
        split at hs
        · rename_i hlt
          cases l with
          | nil => exact ⟨n, hn, by simp only [List.length_cons, List.length_nil]; omega⟩
          | cons b l =>
            obtain ⟨n', h1, h2⟩ := ih h (by simp)
            rw [hn] at h1
            cases h1
            exact ⟨n, hn, by simp only [List.length_cons] at h2 ⊢; omega⟩
        · cases hs
  intro hne
  obtain ⟨n, h1, h2⟩ := key hs hne
  exact ⟨n, h1, by omega⟩

/-- **C102, what is missing is never accepted, with tracers.**  A call that succeeds was given
an array for the tracers with a position for every one of them, each declared quantity under the
name it is looked up by, and nothing else that is not declared. -/
theorem accepted_outputs_named_with_tracers {σ : Type} (R : Registry) (g : Tracers) (c : Class) (i : Inst) (p : Packer)
    (state : State) (hp : i.packer = some p) (ho : c.outProps.keys.Nodup) (hd : c.diagProps.keys.Nodup)
    (raw : RawState) (hprep : prepare R g c i state = .ok raw) (s : σ) (out diag : Dict NDArray) :
    (∀ f r, (f s raw).2 = .ok (out, diag) → (callTendency R g c i f s state).2 = .ok r →
      (∃ t, out.get? "tracers" = some t ∧
        (tracerNames g p ≠ [] → ∃ n, t.shape[p.dims.idxOf "tracer"]? = some n ∧ (tracerNames g p).length ≤ n)) ∧
      (¬ Omitted c.inProps c.outProps [] (out.erase "tracers") ∧
        ¬ Undeclared c.inProps c.outProps (out.erase "tracers") ∧
        ¬ Misnamed c.inProps c.outProps [] (out.erase "tracers")) ∧
      ¬ Omitted c.inProps c.diagProps i.ignored diag ∧ ¬ Undeclared c.inProps c.diagProps diag ∧
        ¬ Misnamed c.inProps c.diagProps i.ignored diag) ∧
    (∀ f dt r, (f s raw dt).2 = .ok (diag, out) → (callStepper R g c i f s state dt).2 = .ok r →
      (∃ t, out.get? "tracers" = some t ∧
        (tracerNames g p ≠ [] → ∃ n, t.shape[p.dims.idxOf "tracer"]? = some n ∧ (tracerNames g p).length ≤ n)) ∧
      (¬ Omitted c.inProps c.outProps [] (out.erase "tracers") ∧
        ¬ Undeclared c.inProps c.outProps (out.erase "tracers") ∧
        ¬ Misnamed c.inProps c.outProps [] (out.erase "tracers")) ∧
      ¬ Omitted c.inProps c.diagProps i.ignored diag ∧ ¬ Undeclared c.inProps c.diagProps diag) := by
  refine ⟨fun f r hf h => ?_, fun f dt r hf h => ?_⟩
  · unfold callTendency at h
    rw [hprep] at h
    dsimp only at h
    rw [hf, Exc.ok_bind] at h
    unfold finishTendency at h
    obtain ⟨tr, h0, h⟩ := Exc.bind_ok_iff.1 h
    obtain ⟨e, ht⟩ := takeTracers_enough hp h0
    rw [e] at h
    obtain ⟨_, h1, h⟩ := Exc.bind_ok_iff.1 h
    obtain ⟨_, h2, h⟩ := Exc.bind_ok_iff.1 h
    obtain ⟨_, h3, h⟩ := Exc.bind_ok_iff.1 h
    obtain ⟨_, h4, h⟩ := Exc.bind_ok_iff.1 h
    exact ⟨ht, restored_named ho h1 h3, restored_named hd h2 h4⟩
  · unfold callStepper at h
    rw [hprep] at h
    dsimp only at h
    rw [hf, Exc.ok_bind] at h
    unfold finishStepper at h
    obtain ⟨tr, h0, h⟩ := Exc.bind_ok_iff.1 h
    obtain ⟨e, ht⟩ := takeTracers_enough hp h0
    rw [e] at h
    obtain ⟨_, h1, h⟩ := Exc.bind_ok_iff.1 h
    obtain ⟨_, h2, h⟩ := Exc.bind_ok_iff.1 h
    obtain ⟨_, h3, h⟩ := Exc.bind_ok_iff.1 h
    obtain ⟨_, h4, h⟩ := Exc.bind_ok_iff.1 h
    obtain ⟨_, h5, h⟩ := Exc.bind_ok_iff.1 h
    exact ⟨ht, restored_named ho h2 h5, checkRaw_ok.1 h1⟩

namespace Demo

/-- Tracers on the vertical axis, the tracer axis last. -/
def levelsCls : Class where
  kind := .tendency
  inProps := []
  outProps := []
  diagProps := []
  usesTracers := true
  tracerDims := some ["z", "tracer"]

/-- Tracer `h` is registered. -/
def oneG : Tracers := runOps reg {} [.register "h" "m"]

/-- A call of a component that returns the given arrays. -/
def tracerCall (d : Dict NDArray) : Except Err (Dict DataArray × Dict DataArray) :=
  match construct reg oneG levelsCls false "me" with
  | (g, c, .ok i) => (callTendency reg g c i (fun (_ : Unit) _ => ((), .ok (d, []))) () state).2
  | _ => .error .typeError

end Demo

/-- An array with the three levels and one tracer is accepted, and so is one with two further
positions; none, no position for the tracer, no tracer axis, two levels, and a name beside it raise. -/
example :
    (Exc.test (Demo.tracerCall [("tracers", NDArray.zeros [3, 1])]) (fun r =>
      decide ((r.1.get? "h").map (fun a => (a.dims, a.arr.shape)) = some (["z"], [3]))) &&
    Exc.test (Demo.tracerCall [("tracers", NDArray.zeros [3, 3])]) (fun r =>
      decide (r.1.keys = ["h"] ∧ (r.1.get? "h").map (fun a => (a.dims, a.arr.shape)) = some (["z"], [3]))) &&
    Exc.failsWith (Demo.tracerCall []) .keyError &&
    Exc.failsWith (Demo.tracerCall [("tracers", NDArray.zeros [3, 0])]) .indexError &&
    Exc.failsWith (Demo.tracerCall [("tracers", NDArray.zeros [3])]) .indexError &&
    Exc.failsWith (Demo.tracerCall [("tracers", NDArray.zeros [2, 1])]) .invalidPropertyDict &&
    Exc.failsWith (Demo.tracerCall [("tracers", NDArray.zeros [3, 1]), ("other", NDArray.zeros [1])]) .extraOutput) = true := by
  decide +kernel

/-- The hypotheses hold there. -/
example : ∃ raw, prepare Demo.reg Demo.oneG Demo.levelsCls
      ⟨"me", false, [], some ⟨[], ["z", "tracer"], []⟩⟩ Demo.state = .ok raw ∧
    ∀ f : Unit → RawState → Unit × Except Err (Dict NDArray × Dict NDArray),
      (f () raw).2 = .ok ([("tracers", NDArray.zeros [3, 1])], []) →
      ∃ r, (callTendency Demo.reg Demo.oneG Demo.levelsCls ⟨"me", false, [], some ⟨[], ["z", "tracer"], []⟩⟩ f ()
        Demo.state).2 = .ok r := by
  have hok : Exc.test (prepare Demo.reg Demo.oneG Demo.levelsCls
      ⟨"me", false, [], some ⟨[], ["z", "tracer"], []⟩⟩ Demo.state) (fun _ => true) = true := by decide +kernel
  cases hprep : prepare Demo.reg Demo.oneG Demo.levelsCls
      ⟨"me", false, [], some ⟨[], ["z", "tracer"], []⟩⟩ Demo.state with
  | error e => rw [hprep] at hok; cases hok
  | ok raw =>
  refine ⟨raw, rfl, fun f hf => (declared_outputs_accepted_with_tracers Demo.reg [.register "h" "m"] Demo.levelsCls _
    ⟨[], ["z", "tracer"], []⟩ Demo.state Demo.state_wf rfl (by decide) (by decide) (by simp) (by simp [Dict.keys, Demo.levelsCls])
    (by simp [Dict.keys, Demo.levelsCls]) (fun kv h => (by cases h)) (fun kv h => (by cases h)) raw hprep () (fun _ => 3) (fun _ => 3)
    (fun _ => 3) [("tracers", NDArray.zeros [3, 1])] [] (NDArray.zeros [3, 1]) 1 rfl ?_ (by decide +kernel) (by decide +kernel)
    ⟨fun q h => (by cases h), fun kv h => (by cases h), fun k h => (by cases h)⟩
    ⟨fun q h => (by cases h), fun kv h => (by cases h), fun k h => (by cases h)⟩).1 f hf⟩
  intro q hq d hd
  have hreq : requested Demo.state (tracerReq Demo.oneG ⟨[], ["z", "tracer"], []⟩) = [(Demo.prof, ["z"])] := rfl
  change q ∈ requested Demo.state (tracerReq Demo.oneG ⟨[], ["z", "tracer"], []⟩) at hq
  rw [hreq] at hq
  rw [List.mem_singleton.1 hq] at hd ⊢
  revert d
  decide +kernel

end Verif

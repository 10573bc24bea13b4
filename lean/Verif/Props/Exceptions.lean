import Verif.Spec.Exceptions
import Verif.Props.InputArrays
import Verif.Props.Tracers
import Verif.Props.Components
/-!
# C101: which exception a component call raises
-/

namespace Verif

/-! ## The exceptions of the pieces -/

theorem mapM_error' {α β : Type} {f : α → Except Err β} {l : List α} {e : Err}
    (h : l.mapM f = .error e) : ∃ x ∈ l, f x = .error e := by
  induction l with
  | nil => cases h
  | cons a l ih =>
    rw [List.mapM_cons] at h
    rcases Exc.bind_error_iff.1 h with h | ⟨b, _, h⟩
    · exact ⟨a, List.mem_cons_self, h⟩
    · rcases Exc.bind_error_iff.1 h with h | ⟨_, _, h⟩
      · obtain ⟨x, hx, hf⟩ := ih h
        exact ⟨x, List.mem_cons_of_mem _ hx, hf⟩
      · cases h

theorem transpose_error {a : NDArray} {axes : List Nat} {e : Err} (h : a.transpose axes = .error e) :
    e = .valueError := by
  unfold NDArray.transpose at h
  split at h
  · cases h
  · cases h; rfl

theorem broadcastTo_error {a : NDArray} {s : List Nat} {e : Err} (h : a.broadcastTo s = .error e) :
    e = .valueError := by
  unfold NDArray.broadcastTo at h
  split at h
  · cases h
  · cases h; rfl

theorem axisOf_error {dims : List String} {d : String} {e : Err} (h : axisOf dims d = .error e) :
    e = .valueError := by
  unfold axisOf at h
  split at h
  · cases h
  · cases h; rfl

theorem getNumpyArray_error {a : DataArray} {outDims : List String} {lens : Dict Nat} {e : Err}
    (h : getNumpyArray a outDims lens = .error e) : e = .valueError := by
  unfold getNumpyArray at h
  split at h
  · cases h
  split at h
  · cases h
  dsimp only at h
  rcases Exc.bind_error_iff.1 h with h | ⟨vc, _, h⟩
  · split at h
    · rcases Exc.bind_error_iff.1 h with h | ⟨_, _, h⟩
      · exact (NDArray.reshape_error h).1
      · cases h
    · cases h
  rcases Exc.bind_error_iff.1 h with h | ⟨arr, _, h⟩
  · split at h
    · cases h
    rcases Exc.bind_error_iff.1 h with h | ⟨_, _, h⟩
    · obtain ⟨_, _, h⟩ := mapM_error' h
      exact axisOf_error h
    · exact transpose_error h
  split at h
  · cases h
  split at h
  · cases h
  · exact broadcastTo_error h

theorem flatten_error {a : NDArray} {i j : Nat} {e : Err} (h : flattenWildcardDims a i j = .error e) :
    e = .valueError := by
  unfold flattenWildcardDims at h
  split at h
  · cases h; rfl
  split at h
  · cases h; rfl
  split at h
  · exact (NDArray.reshape_error h).1
  · exact (NDArray.reshape_error h).1

/-- Why `getArray` raised. -/
theorem getArray_error {R : Registry} {a : DataArray} {units : String} {outDims : List String}
    {lens : Dict Nat} {e : Err} (h : getArray R a units outDims lens = .error e) :
    (e = .invalidState ∧ (a.attrs.get? "units" = none ∨ ∃ own ua ub,
      a.attrs.get? "units" = some own ∧ R.parse own = some ua ∧ R.parse units = some ub ∧ ua.dim ≠ ub.dim)) ∨
    (e = .undefinedUnit ∧ ∃ own, a.attrs.get? "units" = some own ∧
      (R.parse own = none ∨ R.parse units = none)) ∨
    (e = .valueError ∧ ∃ own ua ub, a.attrs.get? "units" = some own ∧ R.parse own = some ua ∧
      R.parse units = some ub ∧ ua.dim = ub.dim) := by
  unfold getArray at h
  cases hu : a.attrs.get? "units" with
  | none => simp only [hu] at h; cases h; exact .inl ⟨rfl, .inl rfl⟩
  | some own =>
    simp only [hu] at h
    cases ha : R.parse own with
    | none =>
      have ht : a.toUnits R units = .error .undefinedUnit := by
        unfold DataArray.toUnits DataArray.dataArrayToUnits
        simp only [hu]
        simp [Registry.unit, ha]
      rw [ht] at h; cases h
      exact .inr (.inl ⟨rfl, own, rfl, .inl ha⟩)
    | some ua =>
      cases hb : R.parse units with
      | none =>
        have ht : a.toUnits R units = .error .undefinedUnit := by
          unfold DataArray.toUnits DataArray.dataArrayToUnits
          simp only [hu]
          simp [Registry.unit, ha, hb, Exc.ok_bind]
        rw [ht] at h; cases h
        exact .inr (.inl ⟨rfl, own, rfl, .inr rfl⟩)
      | some ub =>
        by_cases hd : ua.dim = ub.dim
        · obtain ⟨q, hq⟩ := toUnits_isOk (v := a) hu ha hb hd
          rw [hq] at h
          exact .inr (.inr ⟨getNumpyArray_error h, own, ua, ub, rfl, ha, rfl, hd⟩)
        · have ht : a.toUnits R units = .error .valueError := by
            unfold DataArray.toUnits DataArray.dataArrayToUnits
            simp only [hu]
            simp [Registry.unit, ha, hb, Exc.ok_bind, hd, PintUnit.sameQty]
          rw [ht] at h; cases h
          exact .inl ⟨rfl, .inr ⟨own, ua, ub, rfl, ha, rfl, hd⟩⟩

theorem learnLens_clash {zs : List (String × Nat)} {lens : Dict Nat} {e : Err}
    (h : learnLens zs lens = .error e) :
    ∃ d n m, (d, n) ∈ zs ∧ n ≠ m ∧ (lens.get? d = some m ∨ (d, m) ∈ zs) := by
  induction zs generalizing lens with
  | nil => cases h
  | cons dn zs ih =>
    obtain ⟨d, n⟩ := dn
    unfold learnLens at h
    cases hg : lens.get? d with
    | none =>
      simp only [hg] at h
      obtain ⟨d', n', m', h1, h2, h3⟩ := ih h
      refine ⟨d', n', m', List.mem_cons_of_mem _ h1, h2, ?_⟩
      rcases h3 with h3 | h3
      · rw [Dict.get?_set] at h3
        split at h3
        · rename_i he; cases h3; subst he; exact .inr List.mem_cons_self
        · exact .inl h3
      · exact .inr (List.mem_cons_of_mem _ h3)
    | some m =>
      simp only [hg] at h
      split at h
      · rename_i hne; exact ⟨d, n, m, List.mem_cons_self, hne, .inl hg⟩
      · obtain ⟨d', n', m', h1, h2, h3⟩ := ih h
        refine ⟨d', n', m', List.mem_cons_of_mem _ h1, h2, ?_⟩
        rcases h3 with h3 | h3
        · exact .inl h3
        · exact .inr (List.mem_cons_of_mem _ h3)

/-- Why the first pass over the state raised. -/
theorem matchLoop_error {state : State} (hwf : state.WF) {all props : PropDict} {wild : List String}
    {lens : Dict Nat} {e : Err} (hsub : ∀ kv ∈ props, kv ∈ all) (hdecl : Declared props)
    (hl : ∀ d m, lens.get? d = some m → ∃ q ∈ requested state all, d ∈ q.1.dims ∧ q.1.len d = m)
    (h : matchLoop state props wild lens = .error e) :
    (e = .invalidState ∧ (LengthsClash state all ∨ DimsUnlisted state all)) ∨
    (e = .keyError ∧ Lacks state all) ∨ (e = .attributeError ∧ NotArrays state all) := by
  induction props generalizing wild lens with
  | nil => cases h
  | cons kv props ih =>
    obtain ⟨name, p⟩ := kv
    have hin := hsub _ List.mem_cons_self
    obtain ⟨ds, u, h1, _, h2⟩ := hdecl _ List.mem_cons_self
    unfold matchLoop at h
    rw [(ensureDimsUnits_ok (du := (ds, u))).2 ⟨h1, h2⟩] at h
    simp only [Exc.ok_bind] at h
    cases hg : Dict.get? state name with
    | none =>
      have : state.da name = .error .keyError := by unfold State.da; rw [hg]
      rw [this] at h; cases h
      exact .inr (.inl ⟨rfl, _, hin, hg⟩)
    | some v =>
      cases v with
      | time t =>
        have : state.da name = .error .attributeError := by unfold State.da; rw [hg]
        rw [this] at h; cases h
        exact .inr (.inr ⟨rfl, _, hin, t, hg⟩)
      | da a =>
        have hq : (a, ds) ∈ requested state all := mem_requested.2 ⟨_, hin, hg, h1⟩
        have hawf := hwf _ _ hg
        rw [State.da_ok.2 hg, Exc.ok_bind] at h
        rcases Exc.bind_error_iff.1 h with h | ⟨lens', hl', h⟩
        · refine .inl ⟨learnLens_error h, .inl ?_⟩
          obtain ⟨d, n, m, k1, k2, k3⟩ := learnLens_clash h
          obtain ⟨k4, k5⟩ := (DataArray.mem_zip_len hawf).1 k1
          rcases k3 with k3 | k3
          · obtain ⟨q, q1, q2, q3⟩ := hl d m k3
            exact ⟨_, hq, q, q1, d, k4, q2, by rw [← k5, q3]; exact k2⟩
          · exact absurd (k5.trans ((DataArray.mem_zip_len hawf).1 k3).2.symm) k2
        · obtain ⟨_, l2, l3⟩ := learnLens_ok hl'
          split at h
          · rename_i hnew
            cases h
            refine .inl ⟨rfl, .inr ⟨_, hq, hnew.2, ?_⟩⟩
            obtain ⟨d, hd⟩ := List.exists_mem_of_ne_nil _ hnew.1
            rw [List.mem_filter] at hd
            exact ⟨d, hd.1, by simpa using hd.2⟩
          · apply ih (fun kv hkv => hsub kv (List.mem_cons_of_mem _ hkv))
              (fun kv hkv => hdecl kv (List.mem_cons_of_mem _ hkv)) _ h
            intro d m hd
            rcases l3 d m hd with hd | hd
            · exact hl d m hd
            · obtain ⟨k4, k5⟩ := (DataArray.mem_zip_len hawf).1 hd
              exact ⟨_, hq, k4, k5.symm⟩

theorem rawInputs_error {R : Registry} {state : State} {wild : List String} {lens : Dict Nat}
    {props : PropDict} {out0 : Dict NDArray} {e : Err}
    (h : rawInputs R state wild lens props out0 = .error e) :
    ∃ kv ∈ props, rawInput R state wild lens kv.1 kv.2 = .error e := by
  induction props generalizing out0 with
  | nil => cases h
  | cons kv props ih =>
    obtain ⟨name, p⟩ := kv
    unfold rawInputs at h
    rcases Exc.bind_error_iff.1 h with h | ⟨_, _, h⟩
    · exact ⟨_, List.mem_cons_self, h⟩
    · obtain ⟨kv, hkv, hf⟩ := ih h
      exact ⟨kv, List.mem_cons_of_mem _ hkv, hf⟩

/-- Every exception of `get_numpy_arrays_with_properties` is explained by a fault
of the state of its own kind. -/
theorem inputs_exception_explained {R : Registry} (hR : R.Faithful) {state : State} {props : PropDict}
    (hwf : state.WF) (hsf : state.StarFree) (hdecl : Declared props) {e : Err}
    (h : getNumpyArrays R state props = .error e) : Explains R state props e := by
  unfold getNumpyArrays at h
  rcases Exc.bind_error_iff.1 h with h | ⟨wl, hw, h⟩
  · unfold getWildcard at h
    rcases Exc.bind_error_iff.1 h with h | ⟨_, _, h⟩
    · rcases matchLoop_error hwf (fun _ h => h) hdecl (by simp) h with ⟨rfl, k | k⟩ | ⟨rfl, k⟩ | ⟨rfl, k⟩
      · exact .inl k
      · exact .inr (.inl k)
      · exact k
      · exact k
    · split at h <;> cases h
  obtain ⟨inv, hwild, hnone⟩ := getWildcard_ok hwf hw
  obtain ⟨kv, hkv, hr⟩ := rawInputs_error h
  obtain ⟨ds, u, h1, hnd, h2⟩ := hdecl kv hkv
  obtain ⟨ds', u', a, e1, e2, e3, e4, e5⟩ := inv.entry kv hkv
  rw [h1] at e1; cases e1
  rw [h2] at e2; cases e2
  have hg : (∃ od, getArray R a u od wl.2 = .error e) ∨ e = .valueError := by
    have hr' := hr
    unfold rawInput at hr'
    rw [(ensureDimsUnits_ok (du := (ds, u))).2 ⟨h1, h2⟩, State.da_ok.2 e3] at hr'
    simp only [Exc.ok_bind] at hr'
    rcases Exc.bind_error_iff.1 hr' with hr' | ⟨_, _, hr'⟩
    · split at hr'
      · rcases Exc.bind_error_iff.1 hr' with hr' | ⟨_, _, hr'⟩
        · exact .inl ⟨_, hr'⟩
        · exact .inr (flatten_error hr')
      · exact .inl ⟨_, hr'⟩
    · cases hr'
  -- a ValueError needs an overlap
  have hval : e = .valueError → (∃ own ua ub, a.attrs.get? "units" = some own ∧
      R.parse own = some ua ∧ R.parse u = some ub ∧ ua.dim = ub.dim) → WildcardOverlaps state props := by
    rintro rfl ⟨own, ua, ub, u1, u2, u3, u4⟩
    by_contra hno
    have hdisj : "*" ∈ ds → ∀ d ∈ wildSpec (requested state props), d ∉ ds :=
      fun hs d hd hd' => hno ⟨kv, hkv, ds, h1, hs, d, hd, hd'⟩
    by_cases hs : "*" ∈ ds
    · have hwl : wl.1.getD [] = wildSpec (requested state props) := by
        rcases hwild with hwild | hwild
        · rw [hwild]; rfl
        · exact absurd hs (hnone.1 hwild kv hkv ds h1)
      rw [hwl] at hr
      obtain ⟨r, hr'⟩ := rawInput_isOk hR hwf h1 h2 e3 u1 u2 u3 u4 e4
        (wild := wildSpec (requested state props)) (by
          intro d hd
          by_cases hin : d ∈ ds
          · exact .inl hin
          · exact .inr ⟨hs, mem_wildSpec.2 ⟨(a, ds), mem_requested.2 ⟨kv, hkv, e3, h1⟩, hd, hin⟩⟩)
        (hsf _ _ e3) hnd (nodup_wildSpec _) hdisj
      rw [hr] at hr'; cases hr'
    · have hsame : rawInput R state (wl.1.getD []) wl.2 kv.1 kv.2 = rawInput R state [] wl.2 kv.1 kv.2 := by
        unfold rawInput
        rw [(ensureDimsUnits_ok (du := (ds, u))).2 ⟨h1, h2⟩]
        simp only [Exc.ok_bind, if_neg hs]
      rw [hsame] at hr
      obtain ⟨r, hr'⟩ := rawInput_isOk hR hwf h1 h2 e3 u1 u2 u3 u4 e4 (wild := [])
        (fun d hd => .inl ((e5 d hd).resolve_right hs)) (hsf _ _ e3) hnd (by simp) (fun h => absurd h hs)
      rw [hr] at hr'; cases hr'
  by_cases hconv : ∃ own ua ub, a.attrs.get? "units" = some own ∧
      R.parse own = some ua ∧ R.parse u = some ub ∧ ua.dim = ub.dim
  · rcases hg with ⟨od, hg⟩ | hg
    · rcases getArray_error hg with ⟨rfl, hn | ⟨own, ua, ub, k1, k2, k3, k4⟩⟩ | ⟨rfl, own, k1, k2⟩ | ⟨rfl, k⟩
      · exact .inr (.inr ⟨kv, hkv, a, e3, .inl hn⟩)
      · exact .inr (.inr ⟨kv, hkv, a, e3, .inr ⟨own, u, ua, ub, k1, h2, k2, k3, k4⟩⟩)
      · exact ⟨kv, hkv, a, own, u, e3, k1, h2, k2⟩
      · exact hval rfl k
    · subst hg; exact hval rfl hconv
  · -- the units stop the first access, before the array is laid out
    rcases hg with ⟨od, hg⟩ | hg
    · rcases getArray_error hg with ⟨rfl, hn | ⟨own, ua, ub, k1, k2, k3, k4⟩⟩ | ⟨rfl, own, k1, k2⟩ | ⟨rfl, k⟩
      · exact .inr (.inr ⟨kv, hkv, a, e3, .inl hn⟩)
      · exact .inr (.inr ⟨kv, hkv, a, e3, .inr ⟨own, u, ua, ub, k1, h2, k2, k3, k4⟩⟩)
      · exact ⟨kv, hkv, a, own, u, e3, k1, h2, k2⟩
      · exact hval rfl k
    · exfalso
      subst hg
      unfold rawInput at hr
      rw [(ensureDimsUnits_ok (du := (ds, u))).2 ⟨h1, h2⟩, State.da_ok.2 e3] at hr
      simp only [Exc.ok_bind] at hr
      have hga : ∀ od, (∃ o, getArray R a u od wl.2 = .ok o) ∨
          getArray R a u od wl.2 = .error .valueError → False := by
        rintro od (⟨o, ho⟩ | ho)
        · unfold getArray at ho
          cases hown : a.attrs.get? "units" with
          | none => simp [hown] at ho
          | some own =>
            simp only [hown] at ho
            cases hq : a.toUnits R u with
            | error e => rw [hq] at ho; cases e <;> simp at ho
            | ok q =>
              obtain ⟨own', k1, _, _, k4, _⟩ := toUnits_ok hR hq
              rw [hown] at k1; cases k1
              obtain ⟨ub, ua, hb, ha, hdim, _⟩ := k4 []
              exact hconv ⟨own, ua, ub, hown, ha, hb, hdim.symm⟩
        · rcases getArray_error ho with ⟨h, _⟩ | ⟨h, _⟩ | ⟨_, k⟩
          · cases h
          · cases h
          · exact hconv k
      rcases Exc.bind_error_iff.1 hr with hr | ⟨_, _, hr⟩
      · split at hr
        · rcases Exc.bind_error_iff.1 hr with hr | ⟨o, ho, _⟩
          · exact hga _ (.inr hr)
          · exact hga _ (.inl ⟨o, ho⟩)
        · exact hga _ (.inr hr)
      · cases hr

/-- A state without a fault is accepted. -/
theorem unexplained_inputs_accepted {R : Registry} (hR : R.Faithful) {state : State} {props : PropDict}
    (hwf : state.WF) (hsf : state.StarFree) (hdecl : Declared props)
    (h : ∀ e, ¬ Explains R state props e) : ∃ out, getNumpyArrays R state props = .ok out := by
  cases hres : getNumpyArrays R state props with
  | ok out => exact ⟨out, rfl⟩
  | error e => exact absurd (inputs_exception_explained hR hwf hsf hdecl hres) (h e)

/-- Packing tracers raises only what reading them raises. -/
theorem pack_error {R : Registry} (hR : R.Faithful) (ops : List TOp) {p : Packer} {state : State}
    (hwf : state.WF) (hsf : state.StarFree) (hdims : p.dims.count "tracer" = 1)
    (hstar : p.dims.count "*" ≤ 1) {e : Err} (h : p.pack R (runOps R {} ops) state = .error e) :
    getNumpyArrays R state (tracerReq (runOps R {} ops) p) = .error e := by
  obtain ⟨hg1, hg2⟩ := tracer_globals_consistent R ops {} (by simp) (by simp)
  generalize runOps R {} ops = g at *
  have htr : "tracer" ∈ p.dims := List.count_pos_iff.1 (by omega)
  unfold Packer.pack at h
  rw [quantityDims_ok htr] at h
  simp only [Exc.ok_bind] at h
  rcases Exc.bind_error_iff.1 h with h | ⟨raw, hraw, h⟩
  · exact h
  exfalso
  have hreq : tracerProps g p.prepend (p.dims.erase "tracer") = tracerReq g p := rfl
  rw [hreq] at hraw
  have hq : (p.dims.erase "tracer").erase "tracer" = p.dims.erase "tracer" :=
    List.erase_of_not_mem (not_mem_erase_of_count hdims)
  have hcount : (p.dims.erase "tracer").count "*" ≤ 1 := by
    rw [List.count_erase_of_ne (by decide)]; exact hstar
  have hone : OneStar (tracerReq g p) := by
    intro kv hkv d hd
    obtain ⟨u, hu⟩ := tracerProps_mem hkv
    rw [hu] at hd
    simp only [Option.some.injEq] at hd
    rw [← hd, hq]; exact hcount
  obtain ⟨wl, hw, inv, hwl, hst, hall⟩ := getNumpyArrays_full hR hwf hsf hone
    (by rw [show (tracerReq g p).map outName = _ from tracerProps_outName]
        exact tracerProps_nodup _ _ _) hraw
  have hnm := mem_tracerNames hg2 p
  have hent : ∀ n ∈ tracerNames g p, ∃ r, raw.get? n = some r ∧
      r.shape = specShape (p.dims.erase "tracer") (wildSpec (requested state (tracerReq g p))) (lenOr1 wl.2) := by
    intro n hn
    obtain ⟨q, hq'⟩ := Dict.get?_of_mem_keys ((hnm n).1 hn)
    obtain ⟨dims, units, a, own, r, k1, k2, k3, k4, k5, k6, k7⟩ := hall _ (Dict.mem_of_get? hq')
    obtain ⟨u, hu⟩ := tracerProps_mem (Dict.mem_of_get? hq')
    have hu' : q = _ := hu
    subst hu'
    simp only [Option.some.injEq] at k1
    rw [hq] at k1
    subst k1
    exact ⟨r, k5, k6⟩
  cases hnames : tracerNames g p with
  | nil => rw [hnames] at h; cases h
  | cons first rest =>
    rw [hnames] at h hent
    simp only at h
    obtain ⟨r0, e1, e2⟩ := hent first List.mem_cons_self
    rw [Dict.get_eq_ok.2 e1, Exc.ok_bind] at h
    rcases Exc.bind_error_iff.1 h with h | ⟨_, _, h⟩
    · obtain ⟨n, hn, h⟩ := mapM_error' h
      obtain ⟨r, k1, k2⟩ := hent n hn
      rw [Dict.get_eq_ok.2 k1, Exc.ok_bind, e2, ← k2] at h
      obtain ⟨b, hb, _⟩ := broadcastTo_self_ok r
      rw [hb] at h; cases h
    · cases h

/-! ## Calls of components -/

theorem callsRaise_of_prepare {R : Registry} {g : Tracers} {c : Class} {i : Inst} {state : State} {e : Err}
    (h : prepare R g c i state = .error e) : CallsRaise R g c i state e := by
  intro σ s
  refine ⟨fun f => ?_, fun f dt => ?_, fun f => ?_⟩
  · unfold callTendency; rw [h]
  · unfold callStepper; rw [h]
  · unfold callDiagnostic; rw [h]

theorem callsRun_of_prepare {R : Registry} {g : Tracers} {c : Class} {i : Inst} {state : State} {raw : RawState}
    (h : prepare R g c i state = .ok raw) : CallsRun R g c i state := by
  refine ⟨raw, fun σ s => ⟨fun f => ?_, fun f dt => ?_, fun f => ?_⟩⟩
  · unfold callTendency; rw [h]
  · unfold callStepper; rw [h]
  · unfold callDiagnostic; rw [h]

theorem tracerReq_declared {g : Tracers} {p : Packer} (hnd : p.dims.Nodup) : Declared (tracerReq g p) := by
  intro kv hkv
  obtain ⟨u, hu⟩ := tracerProps_mem hkv
  rw [hu]
  exact ⟨_, u, rfl, (hnd.erase _).erase _, rfl⟩

theorem checkInputs_lacks {props : PropDict} {state : State} :
    checkInputs props state = .error .invalidState ↔ Lacks state props := by
  unfold checkInputs Lacks
  split
  · rename_i h
    refine ⟨fun k => (by cases k), ?_⟩
    rintro ⟨kv, hkv, hn⟩
    exact absurd (h kv.1 (List.mem_map_of_mem hkv)) ((Dict.get?_eq_none_iff _ _).1 hn)
  · rename_i h
    refine ⟨fun _ => ?_, fun _ => rfl⟩
    push Not at h
    obtain ⟨k, hk, hn⟩ := h
    obtain ⟨kv, hkv, rfl⟩ := List.mem_map.1 hk
    exact ⟨kv, hkv, (Dict.get?_eq_none_iff _ _).2 hn⟩

/-- **C101, every exception is explained.**  Whatever a component of any kind
raises before `array_call`, the state has a fault of the kind of that exception:
InvalidStateError if an input is missing, lengths clash, a dimension is not
listed or units are missing or of another dimensionality; KeyError only if a
tracer or the time is missing; AttributeError only if a quantity is no array;
UndefinedUnitError only if units are unknown; ValueError only if a dimension taken
by a wildcard is listed beside a wildcard.  Nothing else is raised. -/
theorem exception_explained (R : Registry) (hR : R.Faithful) (ops : List TOp) (c : Class) (i : Inst)
    (state : State) (hwf : state.WF) (hsf : state.StarFree) (hdecl : Declared c.inProps)
    (htr : ∀ p, i.packer = some p → p.dims.Nodup ∧ "tracer" ∈ p.dims) :
    CallsRun R (runOps R {} ops) c i state ∨
    ∃ e, CallsRaise R (runOps R {} ops) c i state e ∧
      ((e = .invalidState ∧ Lacks state c.inProps) ∨
       (¬ Lacks state c.inProps ∧ (Faulty R (runOps R {} ops) c i state e ∨
          (e = .keyError ∧ Dict.get? state "time" = none)))) := by
  cases h : prepare R (runOps R {} ops) c i state with
  | ok raw => exact .inl (callsRun_of_prepare h)
  | error e =>
    refine .inr ⟨e, callsRaise_of_prepare h, ?_⟩
    unfold prepare at h
    by_cases hl : Lacks state c.inProps
    · rw [checkInputs_lacks.2 hl] at h
      cases h
      exact .inl ⟨rfl, hl⟩
    refine .inr ⟨hl, ?_⟩
    rcases Exc.bind_error_iff.1 h with h | ⟨_, _, h⟩
    · have he : e = .invalidState := by
        unfold checkInputs at h
        split at h
        · cases h
        · cases h; rfl
      subst he
      exact absurd (checkInputs_lacks.1 h) hl
    rcases Exc.bind_error_iff.1 h with h | ⟨raw, _, h⟩
    · exact .inl (.inl (inputs_exception_explained hR hwf hsf hdecl h))
    rcases Exc.bind_error_iff.1 h with h | ⟨raw', _, h⟩
    · cases hp : i.packer with
      | none => rw [hp] at h; cases h
      | some p =>
        rw [hp] at h
        obtain ⟨hnd, htr⟩ := htr p hp
        rcases Exc.bind_error_iff.1 h with h | ⟨_, _, h⟩
        · have hc : p.dims.count "tracer" = 1 := List.count_eq_one_of_mem hnd htr
          have := pack_error hR ops hwf hsf hc (List.nodup_iff_count_le_one.1 hnd _) h
          exact .inl (.inr ⟨p, hp, inputs_exception_explained hR hwf hsf (tracerReq_declared hnd) this⟩)
        · cases h
    rcases Exc.bind_error_iff.1 h with h | ⟨_, _, h⟩
    · unfold Dict.get at h
      cases ht : Dict.get? state "time" with
      | none => rw [ht] at h; cases h; exact .inr ⟨rfl, rfl⟩
      | some t => rw [ht] at h; cases h
    · cases h

/-- **C101, a missing input is not a KeyError.**  The documentation of all four
`__call__` promises KeyError when a required quantity is missing.  For every
component and every state that lacks an input the exception is InvalidStateError,
which is not a KeyError (exceptions.py:1). -/
theorem missing_input_is_not_key_error (R : Registry) (g : Tracers) (c : Class) (i : Inst)
    (state : State) (h : Lacks state c.inProps) :
    CallsRaise R g c i state .invalidState ∧ ¬ CallsRaise R g c i state .keyError := by
  have hr : CallsRaise R g c i state .invalidState := by
    apply callsRaise_of_prepare
    unfold prepare
    rw [checkInputs_lacks.2 h]
    rfl
  refine ⟨hr, fun hk => ?_⟩
  have h1 := (hr Unit ()).1 (fun s _ => (s, .error .user))
  rw [(hk Unit ()).1] at h1
  cases h1

/-- faults other than overlaps make a state invalid -/
theorem explained_not_valid {R : Registry} {state : State} {props : PropDict} {e : Err}
    (he : e ≠ .valueError) (h : Explains R state props e) : ¬ ValidInputs R state props := by
  intro hv
  unfold Explains at h
  split at h
  · rcases h with ⟨q, hq, q', hq', d, h1, h2, h3⟩ | ⟨q, hq, h1, d, h2, h3⟩ | ⟨kv, hkv, a, h1, h2⟩
    · exact h3 (hv.lengths q hq q' hq' d h1 h2)
    · exact h3 (hv.dims q hq h1 d h2)
    · obtain ⟨_, u, a', own, ua, ub, _, k2, k3, k4, k5, k6, k7⟩ := hv.entry kv hkv
      rw [h1] at k3; cases k3
      rcases h2 with h2 | ⟨own', u', ua', ub', j1, j2, j3, j4, j5⟩
      · rw [h2] at k4; cases k4
      · rw [k4] at j1; cases j1
        rw [k2] at j2; cases j2
        rw [k5] at j3; cases j3
        rw [k6] at j4; cases j4
        exact j5 k7
  · obtain ⟨kv, hkv, h1⟩ := h
    obtain ⟨_, _, _, _, _, _, _, _, k3, _⟩ := hv.entry kv hkv
    rw [h1] at k3; cases k3
  · obtain ⟨kv, hkv, t, h1⟩ := h
    obtain ⟨_, _, _, _, _, _, _, _, k3, _⟩ := hv.entry kv hkv
    rw [h1] at k3; cases k3
  · obtain ⟨kv, hkv, a, own, u, h1, h2, h3, h4⟩ := h
    obtain ⟨_, u', a', own', ua, ub, _, k2, k3, k4, k5, k6, k7⟩ := hv.entry kv hkv
    rw [h1] at k3; cases k3
    rw [h2] at k4; cases k4
    rw [h3] at k2; cases k2
    rcases h4 with h4 | h4
    · rw [h4] at k5; cases k5
    · rw [h4] at k6; cases k6
  · exact he rfl
  · exact h

/-- A call of a component does not get as far as `array_call` on a faulty state. -/
theorem faulty_not_run {R : Registry} (hR : R.Faithful) {g : Tracers} {c : Class} {i : Inst} {state : State}
    (hwf : state.WF) (htr : ∀ p, i.packer = some p → "tracer" ∈ p.dims) {e : Err} (he : e ≠ .valueError)
    (h : Faulty R g c i state e) : ¬ ∃ raw, prepare R g c i state = .ok raw := by
  rintro ⟨raw, hr⟩
  unfold prepare at hr
  obtain ⟨_, _, hr⟩ := Exc.bind_ok_iff.1 hr
  obtain ⟨r, h1, hr⟩ := Exc.bind_ok_iff.1 hr
  obtain ⟨r', h2, hr⟩ := Exc.bind_ok_iff.1 hr
  rcases h with h | ⟨p, hp, h⟩
  · obtain ⟨e', he'⟩ := invalid_inputs_rejected R hR state c.inProps hwf (explained_not_valid he h)
    rw [he'] at h1; cases h1
  · rw [hp] at h2
    obtain ⟨t, h2, _⟩ := Exc.bind_ok_iff.1 h2
    unfold Packer.pack at h2
    rw [quantityDims_ok (htr p hp)] at h2
    simp only [Exc.ok_bind] at h2
    obtain ⟨_, h2, _⟩ := Exc.bind_ok_iff.1 h2
    obtain ⟨e', he'⟩ := invalid_inputs_rejected R hR state _ hwf (explained_not_valid he h)
    rw [show tracerReq g p = tracerProps g p.prepend (p.dims.erase "tracer") from rfl] at he'
    rw [he'] at h2; cases h2

/-- a state with faults of one kind only -/
theorem only_fault {R : Registry} (hR : R.Faithful) (ops : List TOp) {c : Class} {i : Inst}
    {state : State} (hwf : state.WF) (hsf : state.StarFree) (hdecl : Declared c.inProps)
    (htr : ∀ p, i.packer = some p → p.dims.Nodup ∧ "tracer" ∈ p.dims) {e : Err} (he : e ≠ .valueError)
    (hl : ¬ Lacks state c.inProps)
    (hthere : Faulty R (runOps R {} ops) c i state e ∨ (e = .keyError ∧ Dict.get? state "time" = none))
    (honly : ∀ e', e' ≠ e → ¬ Faulty R (runOps R {} ops) c i state e')
    (htime : e ≠ .keyError → Dict.get? state "time" ≠ none) :
    CallsRaise R (runOps R {} ops) c i state e := by
  cases h : prepare R (runOps R {} ops) c i state with
  | ok raw =>
    exfalso
    rcases hthere with hf | ⟨_, ht⟩
    · exact faulty_not_run hR hwf (fun p hp => (htr p hp).2) he hf ⟨raw, h⟩
    · unfold prepare at h
      obtain ⟨_, _, h⟩ := Exc.bind_ok_iff.1 h
      obtain ⟨_, _, h⟩ := Exc.bind_ok_iff.1 h
      obtain ⟨_, _, h⟩ := Exc.bind_ok_iff.1 h
      obtain ⟨t, h, _⟩ := Exc.bind_ok_iff.1 h
      rw [Dict.get_eq_ok, ht] at h
      cases h
  | error e' =>
    have hc := callsRaise_of_prepare h
    by_cases hee : e' = e
    · subst hee; exact hc
    exfalso
    rcases exception_explained R hR ops c i state hwf hsf hdecl htr with ⟨raw, hrun⟩ | ⟨e'', hr, hx⟩
    · have h1 := (hrun Bool false).1 (fun _ _ => (true, .error .user))
      rw [(hc Bool false).1] at h1
      cases h1
    · have heq : e'' = e' := by
        have h1 := (hr Unit ()).1 (fun s _ => (s, .error .user))
        rw [(hc Unit ()).1] at h1
        cases h1; rfl
      subst heq
      rcases hx with ⟨_, hx⟩ | ⟨_, hx | ⟨hk, ht⟩⟩
      · exact hl hx
      · exact honly e'' hee hx
      · subst hk
        exact htime (fun h => hee h.symm) ht

/-- **C101, the documented InvalidStateError.**  If the state lacks no input and
its only faults are lengths that clash, dimensions not listed or units that are
missing or of another dimensionality, every call raises InvalidStateError and
`array_call` is not run.  Missing from the documented claim: a missing input,
which should be a KeyError (`missing_input_is_not_key_error`), and faults that are
reported otherwise (`unknown_units_not_invalid_state`, `overlap_is_value_error`). -/
theorem documented_exceptions_partial (R : Registry) (hR : R.Faithful) (ops : List TOp) (c : Class)
    (i : Inst) (state : State) (hwf : state.WF) (hsf : state.StarFree) (hdecl : Declared c.inProps)
    (htr : ∀ p, i.packer = some p → p.dims.Nodup ∧ "tracer" ∈ p.dims)
    (hl : ¬ Lacks state c.inProps) (htime : Dict.get? state "time" ≠ none)
    (hfault : Faulty R (runOps R {} ops) c i state .invalidState)
    (honly : ∀ e, e ≠ .invalidState → ¬ Faulty R (runOps R {} ops) c i state e) :
    CallsRaise R (runOps R {} ops) c i state .invalidState :=
  only_fault hR ops hwf hsf hdecl htr (by decide) hl (.inl hfault) honly (fun _ => htime)

/-- **C101, the documented KeyError.**  If the state lacks no input but lacks a
tracer of the component or the time, and has no other fault, every call raises
KeyError. -/
theorem missing_tracer_or_time_key_error (R : Registry) (hR : R.Faithful) (ops : List TOp) (c : Class)
    (i : Inst) (state : State) (hwf : state.WF) (hsf : state.StarFree) (hdecl : Declared c.inProps)
    (htr : ∀ p, i.packer = some p → p.dims.Nodup ∧ "tracer" ∈ p.dims)
    (hl : ¬ Lacks state c.inProps)
    (hmiss : (∃ p, i.packer = some p ∧ Lacks state (tracerReq (runOps R {} ops) p)) ∨
      Dict.get? state "time" = none)
    (honly : ∀ e, e ≠ .keyError → ¬ Faulty R (runOps R {} ops) c i state e) :
    CallsRaise R (runOps R {} ops) c i state .keyError := by
  refine only_fault hR ops hwf hsf hdecl htr (by decide) hl ?_ honly (fun h => absurd rfl h)
  rcases hmiss with ⟨p, hp, h⟩ | h
  · exact .inl (.inr ⟨p, hp, h⟩)
  · exact .inr ⟨rfl, h⟩

/-- **C101, unknown units are not an InvalidStateError.**  If the only fault of
the state is that a quantity has units which pint does not know, every call raises
pint's UndefinedUnitError. -/
theorem unknown_units_not_invalid_state (R : Registry) (hR : R.Faithful) (ops : List TOp) (c : Class)
    (i : Inst) (state : State) (hwf : state.WF) (hsf : state.StarFree) (hdecl : Declared c.inProps)
    (htr : ∀ p, i.packer = some p → p.dims.Nodup ∧ "tracer" ∈ p.dims)
    (hl : ¬ Lacks state c.inProps) (htime : Dict.get? state "time" ≠ none)
    (hfault : Faulty R (runOps R {} ops) c i state .undefinedUnit)
    (honly : ∀ e, e ≠ .undefinedUnit → ¬ Faulty R (runOps R {} ops) c i state e) :
    CallsRaise R (runOps R {} ops) c i state .undefinedUnit :=
  only_fault hR ops hwf hsf hdecl htr (by decide) hl (.inl hfault) honly (fun _ => htime)

/-- **C101, states without fault are accepted.** -/
theorem faultless_accepted (R : Registry) (hR : R.Faithful) (ops : List TOp) (c : Class)
    (i : Inst) (state : State) (hwf : state.WF) (hsf : state.StarFree) (hdecl : Declared c.inProps)
    (htr : ∀ p, i.packer = some p → p.dims.Nodup ∧ "tracer" ∈ p.dims)
    (htime : Dict.get? state "time" ≠ none)
    (hno : ∀ e, ¬ Faulty R (runOps R {} ops) c i state e) : CallsRun R (runOps R {} ops) c i state := by
  rcases exception_explained R hR ops c i state hwf hsf hdecl htr with h | ⟨e, _, ⟨_, h⟩ | ⟨_, h | ⟨_, h⟩⟩⟩
  · exact h
  · exact absurd (.inl h : Faulty R (runOps R {} ops) c i state .keyError) (hno _)
  · exact absurd h (hno e)
  · exact absurd h htime

theorem mapM_axisOf {current target : List String} {axes : List Nat}
    (h : target.mapM (axisOf current) = .ok axes) :
    axes = target.map fun d => ((dimToAxis current).get? d).getD 0 := by
  induction target generalizing axes with
  | nil => cases h; rfl
  | cons d target ih =>
    rw [List.mapM_cons] at h
    obtain ⟨x, hx, h⟩ := Exc.bind_ok_iff.1 h
    obtain ⟨xs, hxs, h⟩ := Exc.bind_ok_iff.1 h
    cases h
    rw [List.map_cons, ← ih hxs]
    unfold axisOf at hx
    cases hd : (dimToAxis current).get? d with
    | none => rw [hd] at hx; cases hx
    | some k => rw [hd] at hx; cases hx; rfl

/-- An array cannot be laid out with one of its own dimensions twice. -/
theorem getNumpyArray_repeated {a : DataArray} (hwf : a.WF) {outDims : List String} {lens : Dict Nat}
    {d : String} (hd : d ∈ a.dims) (hrep : 2 ≤ outDims.count d) :
    getNumpyArray a outDims lens = .error .valueError := by
  cases h : getNumpyArray a outDims lens with
  | error e => rw [getNumpyArray_error h]
  | ok o =>
    exfalso
    have hone : a.dims.count d = 1 := List.count_eq_one_of_mem hwf.2 hd
    unfold getNumpyArray at h
    split at h
    · rename_i h0
      rw [List.length_eq_zero_iff.1 h0.2] at hrep
      simp at hrep
    split at h
    · rename_i h0
      rw [h0] at hone; omega
    dsimp only at h
    obtain ⟨vc, h1, h⟩ := Exc.bind_ok_iff.1 h
    obtain ⟨arr, h2, _⟩ := Exc.bind_ok_iff.1 h
    have hcur : vc.2.count d = 1 := by
      split at h1
      · obtain ⟨v, _, h1⟩ := Exc.bind_ok_iff.1 h1
        cases h1
        show (_ ++ a.dims).count d = 1
        rw [List.count_append, hone, List.count_eq_zero.2]
        intro hm
        rw [List.mem_reverse, List.mem_filter] at hm
        simp [hd] at hm
      · cases h1; exact hone
    have htar : 2 ≤ (outDims ++ vc.2.filter (fun d => d ∉ outDims)).count d := by
      rw [List.count_append]; omega
    split at h2
    · rename_i h0
      rw [← h0] at htar; omega
    · obtain ⟨axes, hax, h2⟩ := Exc.bind_ok_iff.1 h2
      unfold NDArray.transpose at h2
      split at h2
      · rename_i hn
        have := hn.2.1
        rw [mapM_axisOf hax] at this
        have := List.nodup_iff_count_le_one.1 (this.of_map _) d
        omega
      · cases h2

/-- **C101, an overlap of wildcards is a ValueError.**  If a dimension of a
quantity is taken by the wildcard of another and is listed beside the wildcard of
the quantity itself, a state with no missing quantity, no clash and convertible
units is refused with a ValueError of numpy. -/
theorem overlap_is_value_error (R : Registry) (hR : R.Faithful) (ops : List TOp) (c : Class) (i : Inst)
    (state : State) (hwf : state.WF) (hsf : state.StarFree) (hdecl : Declared c.inProps)
    (hv : ValidInputs R state c.inProps)
    (hov : ∃ kv ∈ c.inProps, ∃ ds a d, kv.2.dims = some ds ∧ "*" ∈ ds ∧
      Dict.get? state kv.1 = some (.da a) ∧ d ∈ a.dims ∧ d ∈ ds ∧ d ∈ wildSpec (requested state c.inProps)) :
    CallsRaise R (runOps R {} ops) c i state .valueError := by
  have hl : ¬ Lacks state c.inProps :=
    fun hl => explained_not_valid (e := .keyError) (by decide) hl hv
  have hg : getNumpyArrays R state c.inProps = .error .valueError := by
    cases h : getNumpyArrays R state c.inProps with
    | error e =>
      by_cases he : e = .valueError
      · rw [he]
      · exact absurd hv (explained_not_valid he (inputs_exception_explained hR hwf hsf hdecl h))
    | ok out =>
      exfalso
      obtain ⟨kv, hkv, ds, a, d, h1, hs, h3, hd, hds, hdw⟩ := hov
      unfold getNumpyArrays at h
      obtain ⟨wl, hw, h⟩ := Exc.bind_ok_iff.1 h
      obtain ⟨inv, hwild, hnone⟩ := getWildcard_ok hwf hw
      obtain ⟨r, hr⟩ := (rawInputs_ok h).1 kv hkv
      obtain ⟨_, u, k1, _, k2⟩ := hdecl kv hkv
      rw [h1] at k1; cases k1
      have hwl : wl.1.getD [] = wildSpec (requested state c.inProps) := by
        rcases hwild with hwild | hwild
        · rw [hwild]; rfl
        · exact absurd hs (hnone.1 hwild kv hkv ds h1)
      unfold rawInput at hr
      rw [(ensureDimsUnits_ok (du := (ds, u))).2 ⟨h1, k2⟩, State.da_ok.2 h3] at hr
      simp only [Exc.ok_bind, if_pos hs] at hr
      obtain ⟨_, hr, _⟩ := Exc.bind_ok_iff.1 hr
      obtain ⟨arr, hr, _⟩ := Exc.bind_ok_iff.1 hr
      unfold getArray at hr
      cases hu : a.attrs.get? "units" with
      | none => rw [hu] at hr; cases hr
      | some own =>
        simp only [hu] at hr
        cases hq : a.toUnits R u with
        | error e => rw [hq] at hr; cases e <;> cases hr
        | ok q =>
          rw [hq] at hr
          obtain ⟨_, _, hdims, hshape, _⟩ := toUnits_ok hR hq
          have hne : d ≠ "*" := fun e => hsf _ _ h3 (e ▸ hd)
          have hqwf : q.WF := by unfold DataArray.WF; rw [hdims, hshape]; exact hwf _ _ h3
          have hcount : 2 ≤ (ds.take (ds.idxOf "*") ++ wl.1.getD [] ++ ds.drop (ds.idxOf "*" + 1)).count d := by
            rw [hwl]
            have e1 : 1 ≤ (wildSpec (requested state c.inProps)).count d := List.one_le_count_iff.2 hdw
            have e2 : 1 ≤ ds.count d := List.one_le_count_iff.2 hds
            obtain ⟨hsplit, _⟩ := split_at_idxOf hs
            rw [hsplit, List.count_append, List.count_cons_of_ne (fun e => hne e.symm)] at e2
            rw [List.count_append, List.count_append]
            omega
          have := getNumpyArray_repeated (lens := wl.2) hqwf (hdims ▸ hd) hcount
          simp only at hr
          rw [this] at hr
          cases hr
  apply callsRaise_of_prepare
  unfold prepare
  have hc : checkInputs c.inProps state = .ok () := by
    cases h : checkInputs c.inProps state with
    | ok _ => rfl
    | error e =>
      exfalso
      have he : e = .invalidState := by
        unfold checkInputs at h
        split at h
        · cases h
        · cases h; rfl
      subst he
      exact hl (checkInputs_lacks.1 h)
  rw [hc, Exc.ok_bind, hg]
  rfl

/-! ## Examples -/

/-- the faults of a state for a component with one input and no wildcard -/
theorem explains_single {R : Registry} {state : State} {q : String} {p : QProps} {ds : List String}
    {u : String} {a : DataArray} (h1 : p.dims = some ds) (h2 : p.units = some u) (hs : "*" ∉ ds)
    (h3 : Dict.get? state q = some (.da a)) {e : Err} (h : Explains R state [(q, p)] e) :
    (e = .invalidState ∧ ((∃ d ∈ a.dims, d ∉ ds) ∨ a.attrs.get? "units" = none ∨
      ∃ own ua ub, a.attrs.get? "units" = some own ∧ R.parse own = some ua ∧ R.parse u = some ub ∧
        ua.dim ≠ ub.dim)) ∨
    (e = .undefinedUnit ∧ ∃ own, a.attrs.get? "units" = some own ∧ (R.parse own = none ∨ R.parse u = none)) := by
  have hreq : requested state [(q, p)] = [(a, ds)] := by
    rw [requested_cons h3 h1]; rfl
  unfold Explains at h
  split at h
  · refine .inl ⟨rfl, ?_⟩
    rcases h with ⟨x, hx, y, hy, d, _, _, h⟩ | ⟨x, hx, _, d, hd, h⟩ | ⟨kv, hkv, b, hb, h⟩
    · rw [hreq, List.mem_singleton] at hx hy
      subst hx hy
      exact absurd rfl h
    · rw [hreq, List.mem_singleton] at hx
      subst hx
      exact .inl ⟨d, hd, h⟩
    · rw [List.mem_singleton] at hkv
      subst hkv
      rw [h3] at hb; cases hb
      rcases h with h | ⟨own, u', ua, ub, k1, k2, k3, k4, k5⟩
      · exact .inr (.inl h)
      · rw [h2] at k2; cases k2
        exact .inr (.inr ⟨own, ua, ub, k1, k3, k4, k5⟩)
  · obtain ⟨kv, hkv, h⟩ := h
    rw [List.mem_singleton] at hkv
    subst hkv
    rw [h3] at h; cases h
  · obtain ⟨kv, hkv, t, h⟩ := h
    rw [List.mem_singleton] at hkv
    subst hkv
    rw [h3] at h; cases h
  · obtain ⟨kv, hkv, b, own, u', hb, k1, k2, k3⟩ := h
    rw [List.mem_singleton] at hkv
    subst hkv
    rw [h3] at hb; cases hb
    rw [h2] at k2; cases k2
    exact .inr ⟨rfl, own, k1, k3⟩
  · obtain ⟨kv, hkv, ds', h, h', _⟩ := h
    rw [List.mem_singleton] at hkv
    subst hkv
    rw [h1] at h; cases h
    exact absurd h' hs
  · exact h.elim

theorem explains_absent {R : Registry} {state : State} {q : String} {p : QProps}
    (h3 : Dict.get? state q = none) (hs : hasStar p = false) {e : Err} (h : Explains R state [(q, p)] e) :
    e = .keyError := by
  have hreq : requested state [(q, p)] = [] := by
    unfold requested; simp [h3]
  unfold Explains at h
  split at h
  · rcases h with ⟨x, hx, _⟩ | ⟨x, hx, _⟩ | ⟨kv, hkv, b, hb, _⟩
    · rw [hreq] at hx; cases hx
    · rw [hreq] at hx; cases hx
    · rw [List.mem_singleton] at hkv
      subst hkv
      rw [h3] at hb; cases hb
  · rfl
  · obtain ⟨kv, hkv, t, h⟩ := h
    rw [List.mem_singleton] at hkv
    subst hkv
    rw [h3] at h; cases h
  · obtain ⟨kv, hkv, b, own, u', hb, _⟩ := h
    rw [List.mem_singleton] at hkv
    subst hkv
    rw [h3] at hb; cases hb
  · obtain ⟨kv, hkv, ds', h, h', _⟩ := h
    rw [List.mem_singleton] at hkv
    subst hkv
    unfold hasStar at hs
    dsimp only at h
    rw [h] at hs
    simp [h'] at hs
  · exact h.elim

namespace Demo

/-- a component with one input -/
def oneCls : Class where
  kind := .diagnostic
  inProps := [("T", { dims := some ["x", "y", "z"], units := some "degC" })]
  outProps := []
  diagProps := []

def oneInst : Inst := ⟨"one", false, [], none⟩

theorem oneCls_declared : Declared oneCls.inProps := by
  intro kv hkv
  rw [List.mem_singleton.1 hkv]
  exact ⟨_, _, rfl, by decide, rfl⟩

/-- a state with one array called T -/
def oneState (a : DataArray) : State := [("T", .da a), ("time", .time 0)]

theorem oneState_wf {a : DataArray} (h : a.WF) : (oneState a).WF := by
  intro n b hb
  have := Dict.mem_of_get? hb
  simp only [oneState, List.mem_cons, Prod.mk.injEq, List.not_mem_nil, or_false, Val.da.injEq, reduceCtorEq,
    and_false] at this
  rw [this.2]; exact h

theorem oneState_starFree {a : DataArray} (h : "*" ∉ a.dims) : (oneState a).StarFree := by
  intro n b hb
  have := Dict.mem_of_get? hb
  simp only [oneState, List.mem_cons, Prod.mk.injEq, List.not_mem_nil, or_false, Val.da.injEq, reduceCtorEq,
    and_false] at this
  rw [this.2]; exact h

theorem one_lacks {a : DataArray} : ¬ Lacks (oneState a) oneCls.inProps := by
  rintro ⟨kv, hkv, h⟩
  rw [List.mem_singleton.1 hkv] at h
  simp [oneState, Dict.get?] at h

end Demo

/-- The hypotheses of `documented_exceptions_partial` are met by a state whose
only quantity is in metres where degrees are wanted. -/
example : CallsRaise Demo.reg {} Demo.oneCls Demo.oneInst
    (Demo.oneState { Demo.temp with attrs := [("units", "m")] }) .invalidState := by
  refine documented_exceptions_partial Demo.reg Demo.reg_faithful [] _ _ _
    (Demo.oneState_wf ⟨rfl, by decide⟩) (Demo.oneState_starFree (by decide)) Demo.oneCls_declared
    (fun p hp => by cases hp) Demo.one_lacks (by simp [Demo.oneState, Dict.get?]) ?_ ?_
  · exact .inl (.inr (.inr ⟨_, List.mem_singleton_self _, _, rfl, .inr ⟨"m", "degC", _, _, rfl, rfl, rfl, rfl,
      by decide⟩⟩))
  · rintro e he (h | ⟨p, hp, _⟩)
    · rcases explains_single (ds := ["x", "y", "z"]) (u := "degC") rfl rfl (by decide) rfl h with ⟨h, _⟩ | ⟨_, own, h1, h2⟩
      · exact he h
      · cases h1
        rcases h2 with h2 | h2 <;> cases h2
    · cases hp

/-- The hypotheses of `unknown_units_not_invalid_state` are met by a state whose
only quantity has a misspelt unit. -/
example : CallsRaise Demo.reg {} Demo.oneCls Demo.oneInst
    (Demo.oneState { Demo.temp with attrs := [("units", "kelvins")] }) .undefinedUnit := by
  refine unknown_units_not_invalid_state Demo.reg Demo.reg_faithful [] _ _ _
    (Demo.oneState_wf ⟨rfl, by decide⟩) (Demo.oneState_starFree (by decide)) Demo.oneCls_declared
    (fun p hp => by cases hp) Demo.one_lacks (by simp [Demo.oneState, Dict.get?]) ?_ ?_
  · exact .inl ⟨_, List.mem_singleton_self _, _, "kelvins", "degC", rfl, rfl, rfl, .inl rfl⟩
  · rintro e he (h | ⟨p, hp, _⟩)
    · rcases explains_single (ds := ["x", "y", "z"]) (u := "degC") rfl rfl (by decide) rfl h with
        ⟨_, ⟨d, hd, hd'⟩ | h | ⟨own, ua, ub, h1, h2, _⟩⟩ | ⟨h, _⟩
      · revert d; decide
      · cases h
      · cases h1; cases h2
      · exact he h
    · cases hp

/-- The hypotheses of `missing_tracer_or_time_key_error` are met by a component
with a tracer `p` and a state without it. -/
example : CallsRaise Demo.reg {} Demo.oneCls
    { Demo.oneInst with packer := some ⟨[("p", "m")], ["z", "tracer"], []⟩ }
    (Demo.oneState Demo.temp) .keyError := by
  refine missing_tracer_or_time_key_error Demo.reg Demo.reg_faithful [] _ _ _
    (Demo.oneState_wf ⟨rfl, by decide⟩) (Demo.oneState_starFree (by decide)) Demo.oneCls_declared
    (fun p hp => by cases hp; decide) Demo.one_lacks (.inl ⟨_, rfl, ?_⟩) ?_
  · exact ⟨_, List.mem_singleton_self _, rfl⟩
  · rintro e he (h | ⟨p, hp, h⟩)
    · rcases explains_single (ds := ["x", "y", "z"]) (u := "degC") rfl rfl (by decide) rfl h with
        ⟨_, ⟨d, hd, hd'⟩ | h | ⟨own, ua, ub, h1, h2, h3, h4⟩⟩ | ⟨_, own, h1, h2⟩
      · revert d; decide
      · cases h
      · cases h1; cases h2; cases h3; exact h4 rfl
      · cases h1
        rcases h2 with h2 | h2 <;> cases h2
    · cases hp
      exact he (explains_absent (q := "p") rfl (by decide) h)

/-- The hypotheses of `missing_input_is_not_key_error` and `faultless_accepted`. -/
example : Lacks [("time", .time 0)] Demo.oneCls.inProps :=
  ⟨_, List.mem_singleton_self _, rfl⟩
example : CallsRun Demo.reg {} Demo.oneCls Demo.oneInst (Demo.oneState Demo.temp) := by
  refine faultless_accepted Demo.reg Demo.reg_faithful [] _ _ _
    (Demo.oneState_wf ⟨rfl, by decide⟩) (Demo.oneState_starFree (by decide)) Demo.oneCls_declared
    (fun p hp => by cases hp) (by simp [Demo.oneState, Dict.get?]) ?_
  rintro e (h | ⟨p, hp, _⟩)
  · rcases explains_single (ds := ["x", "y", "z"]) (u := "degC") rfl rfl (by decide) rfl h with
      ⟨_, ⟨d, hd, hd'⟩ | h | ⟨own, ua, ub, h1, h2, h3, h4⟩⟩ | ⟨_, own, h1, h2⟩
    · revert d; decide
    · cases h
    · cases h1; cases h2; cases h3; exact h4 rfl
    · cases h1
      rcases h2 with h2 | h2 <;> cases h2
  · cases hp

/-- The hypotheses of `overlap_is_value_error` are met by the state of
`wildcard_overlap_rejected`. -/
example : CallsRaise Demo.reg {} { Demo.oneCls with inProps := Demo.overlapProps } Demo.oneInst
    Demo.overlapState .valueError := by
  refine overlap_is_value_error Demo.reg Demo.reg_faithful [] _ _ _ Demo.overlap_wf
    Demo.overlap_starFree ?_ Demo.overlap_valid
    ⟨_, List.mem_cons_self, _, Demo.temp, "z", rfl, by decide, rfl, by decide, by decide, by decide +kernel⟩
  intro kv hkv
  simp only [Demo.overlapProps, List.mem_cons, List.not_mem_nil, or_false] at hkv
  rcases hkv with rfl | rfl <;> exact ⟨_, _, rfl, by decide, rfl⟩

end Verif

import Verif.Lemmas.Wildcard
import Verif.Spec.Demo
/-!
# C01, C02, C03: arrays handed to components

Property theorems about `get_numpy_arrays_with_properties`.
-/

namespace Verif

/-- **C01.**  Every array handed to a component holds, at the position given by
writing the requested dims in order (the wildcard being the row-major position
over the matched dims), the value of the quantity at the same named coordinates,
physically converted to the requested units.

`L` gives each dimension's length (1 for dims no quantity has); `wildSpec` are
the matched dims.  Hypotheses: state quantities are well-formed, no dimension is
called `*`, at most one `*` per dims list, and no two quantities are given the
same key (aliases distinct from each other and from names). -/
theorem inputs_labelled_correctly (R : Registry) (hR : R.Faithful) (state : State)
    (props : PropDict) (out : Dict NDArray) (hwf : state.WF) (hsf : state.StarFree)
    (hone : OneStar props) (hkeys : (props.map outName).Nodup)
    (h : getNumpyArrays R state props = .ok out) :
    ∃ L : String → Nat, LenSpec (requested state props) L ∧
      ∀ kv ∈ props, ∃ dims units a own raw,
        kv.2.dims = some dims ∧ kv.2.units = some units ∧
        Dict.get? state kv.1 = some (.da a) ∧ a.attrs.get? "units" = some own ∧
        out.get? (outName kv) = some raw ∧
        raw.shape = specShape dims (wildSpec (requested state props)) L ∧
        ∀ ix : String → Nat, (∀ d ∈ dims, d ≠ "*" → ix d < L d) →
          ("*" ∈ dims → ∀ d ∈ wildSpec (requested state props), ix d < L d) →
          SamePhysical R units
            (raw.get (specIndex dims (wildSpec (requested state props)) L ix)) own (a.at' ix) := by
  obtain ⟨wl, _, inv, _, _, hall⟩ := getNumpyArrays_full hR hwf hsf hone hkeys h
  exact ⟨lenOr1 wl.2, lenSpec_of_inv inv, hall⟩

/-- Hypotheses of C01 met by a state with a transposed, flattened, aliased
quantity and a broadcast one; the value at x=1, z=2, y=1 is found at row 2,
column 3 in degC. -/
example : ∃ out, getNumpyArrays Demo.reg Demo.state Demo.props = .ok out ∧
    (Exc.test (out.get "temp") fun r => decide (r.shape = [3, 4] ∧ r.get [2, 3] = 121 - 27315 / 100)) = true := by
  have h : Exc.test (getNumpyArrays Demo.reg Demo.state Demo.props) (fun out =>
    Exc.test (out.get "temp") fun r => decide (r.shape = [3, 4] ∧ r.get [2, 3] = 121 - 27315 / 100)) = true := by
    decide +kernel
  exact Exc.test_ok h

example : Demo.reg.Faithful ∧ Demo.state.WF ∧ Demo.state.StarFree ∧ OneStar Demo.props ∧
    (Demo.props.map outName).Nodup := by
  refine ⟨Demo.reg_faithful, Demo.state_wf, ?_, ?_, by decide⟩
  · intro n a h
    have := Dict.mem_of_get? h
    simp only [Demo.state, List.mem_cons, Prod.mk.injEq, List.not_mem_nil, or_false] at this
    rcases this with h | h | h
    · obtain ⟨_, h⟩ := h; cases h; decide
    · obtain ⟨_, h⟩ := h; cases h; decide
    · obtain ⟨_, h⟩ := h; cases h
  · intro kv hkv d hd
    simp only [Demo.props, List.mem_cons, List.not_mem_nil, or_false] at hkv
    rcases hkv with rfl | rfl
    · cases hd; decide
    · cases hd; decide

/-- The key-collision hypothesis of C01 cannot be dropped: nothing in sympl
rejects an alias equal to another quantity's name, and then one of the two
inputs is silently lost (here `T` is overwritten by the quantity aliased to
`T`). -/
theorem alias_equal_to_name_loses_input :
    ∃ (R : Registry) (state : State) (props : PropDict) (out : Dict NDArray),
      R.Faithful ∧ state.WF ∧ getNumpyArrays R state props = .ok out ∧
      props.length = 2 ∧ out.length = 1 := by
  have h : Exc.test (getNumpyArrays Demo.reg Demo.state
      [("T", { dims := some ["*"], units := some "K" }),
       ("h", { dims := some ["z"], units := some "m", aliasName := some "T" })])
      (fun out => decide (out.length = 1)) = true := by decide +kernel
  obtain ⟨out, h1, h2⟩ := Exc.test_ok h
  exact ⟨_, _, _, out, Demo.reg_faithful, Demo.state_wf, h1, rfl, by simpa using h2⟩

/-- **C02.**  All arrays handed to one component agree on lengths: there is one
length per dimension name and one length of the wildcard axis, and every array
has exactly one axis per requested dim with that length. -/
theorem input_lengths_agree (R : Registry) (hR : R.Faithful) (state : State) (props : PropDict)
    (out : Dict NDArray) (hwf : state.WF) (hsf : state.StarFree) (hone : OneStar props)
    (hkeys : (props.map outName).Nodup) (h : getNumpyArrays R state props = .ok out) :
    (∀ k, k ∈ out.keys ↔ ∃ kv ∈ props, k = outName kv) ∧
    ∃ (L : String → Nat) (nWild : Nat),
      ∀ kv ∈ props, ∃ dims raw, kv.2.dims = some dims ∧ out.get? (outName kv) = some raw ∧
        raw.shape.length = dims.length ∧
        ∀ i (h1 : i < dims.length) (h2 : i < raw.shape.length),
          raw.shape[i] = if dims[i] = "*" then nWild else L dims[i] := by
  refine ⟨?_, ?_⟩
  · intro k
    unfold getNumpyArrays at h
    obtain ⟨wl, hw, h⟩ := Exc.bind_ok_iff.1 h
    have := (rawInputs_ok h).2.2.2 k
    rw [this]
    simp only [Dict.keys_nil, List.not_mem_nil, false_or, List.mem_map]
    constructor
    · rintro ⟨kv, h1, h2⟩; exact ⟨kv, h1, h2.symm⟩
    · rintro ⟨kv, h1, h2⟩; exact ⟨kv, h1, h2.symm⟩
  · obtain ⟨L, _, hall⟩ := inputs_labelled_correctly R hR state props out hwf hsf hone hkeys h
    refine ⟨L, size ((wildSpec (requested state props)).map L), ?_⟩
    intro kv hkv
    obtain ⟨dims, units, a, own, raw, h1, _, _, _, h2, h3, _⟩ := hall kv hkv
    refine ⟨dims, raw, h1, h2, by rw [h3]; simp [specShape], ?_⟩
    intro i hi1 hi2
    simp only [h3, specShape, List.getElem_map]

/-- What a state must satisfy for a component with these input properties. -/
structure ValidInputs (R : Registry) (state : State) (props : PropDict) : Prop where
  /-- every requested quantity is specified, present, has units, and they convert -/
  entry : ∀ kv ∈ props, ∃ dims units a own ua ub, kv.2.dims = some dims ∧ kv.2.units = some units ∧
    Dict.get? state kv.1 = some (.da a) ∧ a.attrs.get? "units" = some own ∧
    R.parse own = some ua ∧ R.parse units = some ub ∧ ua.dim = ub.dim
  /-- any two requested quantities agree on the length of a shared dimension -/
  lengths : ∀ q ∈ requested state props, ∀ q' ∈ requested state props,
    ∀ d, d ∈ q.1.dims → d ∈ q'.1.dims → q.1.len d = q'.1.len d
  /-- a quantity has only requested dims, unless a wildcard takes the others -/
  dims : ∀ q ∈ requested state props, "*" ∉ q.2 → ∀ d ∈ q.1.dims, d ∈ q.2

/-- **C03, soundness.**  A state with any defect is rejected. -/
theorem invalid_inputs_rejected (R : Registry) (hR : R.Faithful) (state : State) (props : PropDict)
    (hwf : state.WF)
    (hbad : ¬ ValidInputs R state props) : ∃ e, getNumpyArrays R state props = .error e := by
  cases hres : getNumpyArrays R state props with
  | error e => exact ⟨e, rfl⟩
  | ok out =>
    exfalso; apply hbad
    unfold getNumpyArrays at hres
    obtain ⟨wl, hw, h⟩ := Exc.bind_ok_iff.1 hres
    obtain ⟨inv, hwild, hnone⟩ := getWildcard_ok hwf hw
    obtain ⟨r1, _⟩ := rawInputs_ok h
    refine ⟨?_, ?_, ?_⟩
    · intro kv hkv
      obtain ⟨dims, units, a, e1, e2, e3, e4, e5⟩ := inv.entry kv hkv
      obtain ⟨r, hr⟩ := r1 kv hkv
      -- the conversion inside rawInput succeeded
      unfold rawInput at hr
      obtain ⟨du, hdu, hr1⟩ := Exc.bind_ok_iff.1 hr
      obtain ⟨a', ha', hr2⟩ := Exc.bind_ok_iff.1 hr1
      obtain ⟨arr, harr, hr3⟩ := Exc.bind_ok_iff.1 hr2
      rw [ensureDimsUnits_ok, e1, e2] at hdu
      rw [State.da_ok, e3] at ha'
      injection ha' with ha'
      injection ha' with ha'
      have hu2 : units = du.2 := by injection hdu.2
      have hget : ∃ od o, getArray R a units od wl.2 = .ok o := by
        rw [← ha', ← hu2] at harr
        split at harr
        · obtain ⟨o, ho, _⟩ := Exc.bind_ok_iff.1 harr
          exact ⟨_, o, ho⟩
        · exact ⟨_, _, harr⟩
      obtain ⟨od, o, ho⟩ := hget
      unfold getArray at ho
      cases hown : a.attrs.get? "units" with
      | none => simp [hown] at ho
      | some own =>
        simp only [hown] at ho
        cases hq : a.toUnits R units with
        | error e => rw [hq] at ho; cases e <;> simp at ho
        | ok q =>
          obtain ⟨own', h1, _, _, h4, _⟩ := toUnits_ok hR hq
          rw [hown] at h1
          cases h1
          obtain ⟨ub, ua, hb, ha, hdim, _⟩ := h4 []
          exact ⟨dims, units, a, own, ua, ub, e1, e2, e3, hown, ha, hb, hdim.symm⟩
    · intro q hq q' hq' d hd hd'
      have hL := (lenSpec_of_inv inv).1
      rw [← hL q hq d hd, ← hL q' hq' d hd']
    · intro q hq hs d hd
      obtain ⟨kv, hkv, h1, h2⟩ := mem_requested.1 hq
      obtain ⟨dims, units, a, e1, e2, e3, e4, e5⟩ := inv.entry kv hkv
      rw [h1] at e3; cases e3
      rw [h2] at e1; cases e1
      exact (e5 d hd).resolve_right hs

/-- The hypothesis of C03 is met by a state in which two quantities disagree on
the length of `z`, which is rejected with InvalidStateError. -/
example : getNumpyArrays Demo.reg
    [("T", .da Demo.temp), ("h", .da { Demo.prof with arr := ⟨[4], fun _ => 0⟩ })]
    Demo.props = .error .invalidState :=
  Exc.failsWith_error (by decide +kernel)

/-- **C03, completeness.**  A valid state is accepted, provided the dims each
wildcard absorbs are not also listed beside it (see
`wildcard_overlap_rejected`). -/
theorem valid_inputs_accepted (R : Registry) (hR : R.Faithful) (state : State) (props : PropDict)
    (hwf : state.WF) (hsf : state.StarFree)
    (hnd : ∀ kv ∈ props, ∀ d, kv.2.dims = some d → d.Nodup)
    (hdisj : ∀ kv ∈ props, ∀ ds, kv.2.dims = some ds → "*" ∈ ds →
      ∀ d ∈ wildSpec (requested state props), d ∉ ds)
    (hv : ValidInputs R state props) : ∃ out, getNumpyArrays R state props = .ok out := by
  -- a common length function
  classical
  let L : String → Nat := fun d =>
    if h : ∃ q ∈ requested state props, d ∈ q.1.dims then h.choose.1.len d else 1
  have hLq : ∀ q ∈ requested state props, ∀ d ∈ q.1.dims, q.1.len d = L d := by
    intro q hq d hd
    have hex : ∃ q ∈ requested state props, d ∈ q.1.dims := ⟨q, hq, hd⟩
    show q.1.len d = if h : ∃ q ∈ requested state props, d ∈ q.1.dims then h.choose.1.len d else 1
    rw [dif_pos hex]
    exact hv.lengths q hq _ hex.choose_spec.1 d hd hex.choose_spec.2
  have hent : ∀ kv ∈ props, ∃ dims units a, kv.2.dims = some dims ∧ kv.2.units = some units ∧
      Dict.get? state kv.1 = some (.da a) ∧ (∀ d ∈ a.dims, a.len d = L d) ∧
      (∀ d ∈ a.dims, d ∈ dims ∨ "*" ∈ dims) := by
    intro kv hkv
    obtain ⟨dims, units, a, own, ua, ub, h1, h2, h3, _⟩ := hv.entry kv hkv
    have hq : (a, dims) ∈ requested state props := mem_requested.2 ⟨kv, hkv, h3, h1⟩
    refine ⟨dims, units, a, h1, h2, h3, hLq _ hq, ?_⟩
    intro d hd
    by_cases hs : "*" ∈ dims
    · exact Or.inr hs
    · exact Or.inl (hv.dims _ hq hs d hd)
  obtain ⟨r, hr⟩ := matchLoop_isOk (wild0 := []) (lens0 := []) hwf hent (by simp)
  have hw : ∃ wl, getWildcard state props = .ok wl := by
    unfold getWildcard
    rw [hr]
    simp only [Exc.ok_bind]
    split <;> exact ⟨_, rfl⟩
  obtain ⟨wl, hw⟩ := hw
  obtain ⟨inv, hwild, hnone⟩ := getWildcard_ok hwf hw
  unfold getNumpyArrays
  rw [hw]
  simp only [Exc.ok_bind]
  apply rawInputs_isOk
  intro kv hkv
  obtain ⟨dims, units, a, own, ua, ub, h1, h2, h3, h4, h5, h6, h7⟩ := hv.entry kv hkv
  obtain ⟨dims', units', a', e1, e2, e3, e4, e5⟩ := inv.entry kv hkv
  rw [h1] at e1; cases e1
  rw [h3] at e3; cases e3
  have hstar_wl : "*" ∈ dims → wl.1.getD [] = wildSpec (requested state props) := by
    intro hs
    rcases hwild with hwild | hwild
    · rw [hwild]; rfl
    · exact absurd hs (hnone.1 hwild kv hkv dims h1)
  by_cases hs : "*" ∈ dims
  · rw [hstar_wl hs]
    apply rawInput_isOk hR hwf h1 h2 h3 h4 h5 h6 h7 e4 _ (hsf _ _ h3) (hnd kv hkv dims h1)
    · exact nodup_wildSpec _
    · exact fun hs => hdisj kv hkv dims h1 hs
    · intro d hd
      by_cases hin : d ∈ dims
      · exact Or.inl hin
      · exact Or.inr ⟨hs, mem_wildSpec.2 ⟨(a, dims), mem_requested.2 ⟨kv, hkv, h3, h1⟩, hd, hin⟩⟩
  · have : rawInput R state (wl.1.getD []) wl.2 kv.1 kv.2 = rawInput R state [] wl.2 kv.1 kv.2 := by
      unfold rawInput
      rw [(ensureDimsUnits_ok (du := (dims, units))).2 ⟨h1, h2⟩]
      simp only [Exc.ok_bind, if_neg hs]
    rw [this]
    apply rawInput_isOk hR hwf h1 h2 h3 h4 h5 h6 h7 e4 _ (hsf _ _ h3) (hnd kv hkv dims h1) (by simp)
    · exact fun h => absurd h hs
    · intro d hd
      exact Or.inl ((e5 d hd).resolve_right hs)

/-- `T` and `h` of the demo state. -/
def Demo.overlapState : State := [("T", .da Demo.temp), ("h", .da Demo.prof)]

/-- `T` is requested with `z` beside a wildcard, `h` with a wildcard only. -/
def Demo.overlapProps : PropDict :=
  [("T", { dims := some ["*", "z"], units := some "K" }),
   ("h", { dims := some ["*"], units := some "m" })]

theorem Demo.overlap_wf : Demo.overlapState.WF := by
  intro n a h
  have := Dict.mem_of_get? h
  simp only [Demo.overlapState, List.mem_cons, Prod.mk.injEq, List.not_mem_nil, or_false] at this
  rcases this with h | h
  · obtain ⟨_, h⟩ := h; cases h; exact ⟨rfl, by decide⟩
  · obtain ⟨_, h⟩ := h; cases h; exact ⟨rfl, by decide⟩

theorem Demo.overlap_starFree : Demo.overlapState.StarFree := by
  intro n a h
  have := Dict.mem_of_get? h
  simp only [Demo.overlapState, List.mem_cons, Prod.mk.injEq, List.not_mem_nil, or_false] at this
  rcases this with h | h
  · obtain ⟨_, h⟩ := h; cases h; decide
  · obtain ⟨_, h⟩ := h; cases h; decide

theorem Demo.overlap_valid : ValidInputs Demo.reg Demo.overlapState Demo.overlapProps := by
  have hreq : requested Demo.overlapState Demo.overlapProps =
      [(Demo.temp, ["*", "z"]), (Demo.prof, ["*"])] := by
    simp [requested, Demo.overlapState, Demo.overlapProps, Dict.get?_cons]
  refine ⟨?_, ?_, ?_⟩
  · intro kv hkv
    simp only [Demo.overlapProps, List.mem_cons, List.not_mem_nil, or_false] at hkv
    rcases hkv with rfl | rfl
    · exact ⟨_, _, Demo.temp, _, _, _, rfl, rfl, by simp [Demo.overlapState, Dict.get?_cons], rfl, rfl, rfl, rfl⟩
    · exact ⟨_, _, Demo.prof, _, _, _, rfl, rfl, by simp [Demo.overlapState, Dict.get?_cons], rfl, rfl, rfl, rfl⟩
  · rw [hreq]
    intro q hq q' hq' d hd hd'
    simp only [List.mem_cons, List.not_mem_nil, or_false] at hq hq'
    have hz : d = "z" ∨ q = q' := by
      rcases hq with rfl | rfl <;> rcases hq' with rfl | rfl
      · exact Or.inr rfl
      · simp [Demo.prof] at hd'; exact Or.inl hd'
      · simp [Demo.prof] at hd; exact Or.inl hd
      · exact Or.inr rfl
    rcases hz with rfl | rfl
    · rcases hq with rfl | rfl <;> rcases hq' with rfl | rfl <;> decide +kernel
    · rfl
  · rw [hreq]
    intro q hq hs
    simp only [List.mem_cons, List.not_mem_nil, or_false] at hq
    rcases hq with rfl | rfl <;> simp at hs

/-- Without the disjointness hypothesis a valid-looking state is refused with a
numpy ValueError: `T` has dims x, z; `a` is requested with `["*"]` so `z` becomes
a wildcard match, while `T` lists `z` beside its wildcard. -/
theorem wildcard_overlap_rejected :
    ∃ (R : Registry) (state : State) (props : PropDict), R.Faithful ∧ state.WF ∧
      state.StarFree ∧ ValidInputs R state props ∧
      getNumpyArrays R state props = .error .valueError :=
  ⟨Demo.reg, Demo.overlapState, Demo.overlapProps, Demo.reg_faithful, Demo.overlap_wf,
    Demo.overlap_starFree, Demo.overlap_valid, Exc.failsWith_error (by decide +kernel)⟩

end Verif

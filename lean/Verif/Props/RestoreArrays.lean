import Verif.Lemmas.InitArrays
import Verif.Spec.Demo
/-!
# C04 – C07: arrays returned by components

Property theorems about `restore_data_arrays_with_properties` and
`initialize_numpy_arrays_with_properties`.
-/

namespace Verif

/-- **C06.**  Restored outputs carry the state's dimensions.  Every output that
is not ignored is present, with its wildcard replaced by exactly the dims
matched in the input state, with the input state's length along every dimension
that an input quantity has, and with the declared units. -/
theorem restored_outputs_carry_state_dims (raw : Dict NDArray) (outProps : PropDict)
    (state : State) (inProps : PropDict) (ignoreNames : List String) (ignoreMissing : Bool)
    (out : Dict DataArray) (hwf : state.WF) (hn : outProps.keys.Nodup)
    (hone : ∀ kv ∈ outProps, ∀ d, effDims inProps kv.1 kv.2 = some d → d.count "*" ≤ 1)
    (h : restoreDataArrays raw outProps state inProps ignoreNames ignoreMissing = .ok out) :
    (∀ k, k ∈ out.keys ↔ k ∈ outProps.keys ∧ k ∉ ignoreNames ∧ (ignoreMissing = true → k ∈ raw.keys)) ∧
    ∀ kv ∈ outProps, kv.1 ∉ ignoreNames → (ignoreMissing = true → kv.1 ∈ raw.keys) →
      ∃ dims units da, effDims inProps kv.1 kv.2 = some dims ∧ kv.2.units = some units ∧
        out.get? kv.1 = some da ∧
        da.dims = outDimsSpec dims (wildSpec (requested state inProps)) ∧
        da.attrs = [("units", units)] ∧ da.dims.length = da.arr.shape.length ∧
        ∀ d n, (d, n) ∈ da.dims.zip da.arr.shape →
          ∀ q ∈ requested state inProps, d ∈ q.1.dims → n = q.1.len d := by
  unfold restoreDataArrays at h
  obtain ⟨wl, hw, h⟩ := Exc.bind_ok_iff.1 h
  obtain ⟨ds, hds, h⟩ := Exc.bind_ok_iff.1 h
  obtain ⟨inv, hwild, _⟩ := getWildcard_ok hwf hw
  generalize hgi : (if ignoreMissing = true then
    outProps.keys.filter (fun n => n ∉ raw.keys) ++ ignoreNames else ignoreNames) = ignore at hds h
  have hig : ∀ k ∈ outProps.keys, k ∉ ignore ↔ (k ∉ ignoreNames ∧ (ignoreMissing = true → k ∈ raw.keys)) := by
    intro k hk
    rw [← hgi]
    cases ignoreMissing with
    | false => simp
    | true =>
      simp only [if_true, List.mem_append, List.mem_filter, hk, true_and, decide_eq_true_eq, not_or]
      constructor
      · rintro ⟨h1, h2⟩; exact ⟨h2, fun _ => by simpa using h1⟩
      · rintro ⟨h1, h2⟩; exact ⟨by simpa using h2 trivial, h1⟩
  obtain ⟨rest, e1, e2, e3, e4⟩ := extractOutDims_ok hds (by simpa using hn)
  simp only [List.nil_append] at e1
  subst e1
  have hdsn : (Dict.keys ds).Nodup := e4.nodup hn
  obtain ⟨l1, l2, l3⟩ := restoreLoop_ok h hdsn (fun nd hnd => (e2 nd hnd).1)
  refine ⟨?_, ?_⟩
  · intro k
    rw [l3 k]
    simp only [Dict.keys_nil, List.not_mem_nil, false_or]
    constructor
    · intro hk
      have hk' : k ∈ outProps.keys := e4.subset hk
      refine ⟨hk', (hig k hk').1 ?_⟩
      obtain ⟨d, hd⟩ := Dict.get?_of_mem_keys hk
      exact (e2 _ (Dict.mem_of_get? hd)).1
    · rintro ⟨hk, hk2⟩
      obtain ⟨p, hp⟩ := Dict.get?_of_mem_keys hk
      obtain ⟨d, _, hd⟩ := e3 _ (Dict.mem_of_get? hp) ((hig k hk).2 hk2)
      exact Dict.mem_keys_of_mem hd
  · intro kv hkv hi1 hi2
    have hkmem : kv.1 ∈ outProps.keys := Dict.mem_keys_of_mem hkv
    obtain ⟨dims, hd1, hd2⟩ := e3 kv hkv ((hig _ hkmem).2 ⟨hi1, hi2⟩)
    obtain ⟨da, lens, lens', g1, g2, g3⟩ := l1 _ hd2
    have hget : outProps.get? kv.1 = some kv.2 := Dict.get?_of_mem hn hkv
    obtain ⟨a, units, a1, a2, a3, a4⟩ := g3.exists_raw
    rw [hget] at a2
    simp only [Option.bind_some] at a2
    refine ⟨dims, units, da, hd1, a2, g1, ?_, a3, g3.rank, ?_⟩
    · rcases a4 with ⟨hs, hdd, _⟩ | ⟨hs, _, w, hwl, hdd, _⟩
      · rw [hdd, outDimsSpec_no_star hs]
      · rw [hdd, filled_eq_spec hs (hone kv hkv dims hd1)]
        rcases hwild with hwild | hwild
        · rw [hwild] at hwl; injection hwl with hwl; rw [hwl]
        · rw [hwild] at hwl; cases hwl
    · intro d n hdn q hq hdq
      apply g3.lengths d n hdn
      apply g2
      obtain ⟨kv', hkv', q1, q2⟩ := mem_requested.1 hq
      obtain ⟨dims', units', a', i1, i2, i3, i4, i5⟩ := inv.entry kv' hkv'
      rw [q1] at i3; cases i3
      exact i4 d hdq

/-- Non-vacuity of C06: an output with a wildcard and a new dimension. -/
example : ∃ out, restoreDataArrays [("Q", ⟨[3, 4], fun _ => 7⟩)]
    [("Q", { dims := some ["z", "*"], units := some "m" })] Demo.state Demo.props [] false = .ok out ∧
    (Exc.test (out.get "Q") fun r => decide (r.dims = ["z", "x", "y"] ∧ r.arr.shape = [3, 2, 2])) = true := by
  have h : Exc.test (restoreDataArrays [("Q", ⟨[3, 4], fun _ => 7⟩)]
    [("Q", { dims := some ["z", "*"], units := some "m" })] Demo.state Demo.props [] false) (fun out =>
    Exc.test (out.get "Q") fun r => decide (r.dims = ["z", "x", "y"] ∧ r.arr.shape = [3, 2, 2])) = true := by
    decide +kernel
  exact Exc.test_ok h

/-- **C05, outputs without wildcard.**  A raw output whose number of axes differs
from its dims, or whose length along a dimension differs from that dimension in
the input state, makes the call raise. -/
theorem wrong_shape_rejected (raw : Dict NDArray) (outProps : PropDict)
    (state : State) (inProps : PropDict) (ignoreNames : List String) (ignoreMissing : Bool)
    (hwf : state.WF) (hn : outProps.keys.Nodup)
    (kv : String × QProps) (hkv : kv ∈ outProps) (dims : List String) (a : NDArray)
    (hd : effDims inProps kv.1 kv.2 = some dims) (hs : "*" ∉ dims)
    (hi : kv.1 ∉ ignoreNames) (hm : ignoreMissing = true → kv.1 ∈ raw.keys)
    (ha : raw.get? (getAliasOrName kv.1 outProps inProps) = some a)
    (hbad : dims.length ≠ a.shape.length ∨
      ∃ d n, (d, n) ∈ dims.zip a.shape ∧ ∃ q ∈ requested state inProps, d ∈ q.1.dims ∧ q.1.len d ≠ n) :
    ∃ e, restoreDataArrays raw outProps state inProps ignoreNames ignoreMissing = .error e := by
  cases hres : restoreDataArrays raw outProps state inProps ignoreNames ignoreMissing with
  | error e => exact ⟨e, rfl⟩
  | ok out =>
    exfalso
    -- as in C06, but the star-free output keeps its raw array
    unfold restoreDataArrays at hres
    obtain ⟨wl, hw, h1⟩ := Exc.bind_ok_iff.1 hres
    obtain ⟨ds, hds, h⟩ := Exc.bind_ok_iff.1 h1
    obtain ⟨inv, _, _⟩ := getWildcard_ok hwf hw
    generalize hgi : (if ignoreMissing = true then
      outProps.keys.filter (fun n => n ∉ raw.keys) ++ ignoreNames else ignoreNames) = ignore at hds h
    have hig : kv.1 ∉ ignore := by
      rw [← hgi]
      cases ignoreMissing with
      | false => simpa using hi
      | true =>
        simp only [if_true, List.mem_append, List.mem_filter, decide_eq_true_eq, not_or]
        exact ⟨fun hc => hc.2 (hm rfl), hi⟩
    obtain ⟨rest, e1, e2, e3, e4⟩ := extractOutDims_ok hds (by simpa using hn)
    simp only [List.nil_append] at e1
    subst e1
    obtain ⟨l1, _, _⟩ := restoreLoop_ok h (e4.nodup hn) (fun nd hnd => (e2 nd hnd).1)
    obtain ⟨dims', hd1, hd2⟩ := e3 kv hkv hig
    rw [hd] at hd1; cases hd1
    obtain ⟨da, lens, lens', g1, g2, g3⟩ := l1 _ hd2
    obtain ⟨a', units, a1, a2, a3, a4⟩ := g3.exists_raw
    rw [ha] at a1; cases a1
    rcases a4 with ⟨_, b1, b2, _⟩ | ⟨hs', _⟩
    · rcases hbad with hbad | ⟨d, n, hdn, q, hq, hdq, hne⟩
      · have := g3.rank; rw [b1, b2] at this; exact hbad this
      · apply hne
        symm
        apply g3.lengths d n (by rw [b1, b2]; exact hdn)
        apply g2
        obtain ⟨kv', hkv', q1, q2⟩ := mem_requested.1 hq
        obtain ⟨dims', units', a', i1, i2, i3, i4, i5⟩ := inv.entry kv' hkv'
        rw [q1] at i3; cases i3
        exact i4 d hdq
    · exact hs hs'

/-- Non-vacuity of `wrong_shape_rejected`, with the documented exception. -/
example : restoreDataArrays [("Q", ⟨[4], fun _ => 7⟩)]
    [("Q", { dims := some ["z"], units := some "m" })] Demo.state Demo.props [] false
      = .error .invalidPropertyDict :=
  Exc.failsWith_error (by decide +kernel)

/-- The exception for a wrongly shaped output without wildcard is
InvalidPropertyDictError, when nothing failed before it. -/
theorem wrong_shape_error_class (raw : Dict NDArray) (outProps inProps : PropDict)
    (wild : Option (List String)) (lens : Dict Nat) (name : String) (dims : List String)
    (a : NDArray) (hs : "*" ∉ dims)
    (ha : raw.get? (getAliasOrName name outProps inProps) = some a)
    (hbad : dims.length ≠ a.shape.length ∨
      ∃ d n m, (d, n) ∈ dims.zip a.shape ∧ lens.get? d = some m ∧ m ≠ n) :
    restoreOne raw outProps inProps wild lens name dims = .error .invalidPropertyDict := by
  unfold restoreOne
  dsimp only
  rw [Dict.get_eq_ok.2 ha]
  simp only [Exc.ok_bind, if_neg hs]
  have : checkArrayShape dims a.shape lens = .error .invalidPropertyDict := by
    unfold checkArrayShape
    split
    · rfl
    · split
      · rename_i h1 h2
        rcases hbad with hbad | ⟨d, n, m, b1, b2, b3⟩
        · exact absurd hbad h1
        · exact absurd (h2 (d, n) b1 m b2) b3
      · rfl
  rw [this]; rfl

theorem size_outDimsSpec (dims w : List String) (L : String → Nat) :
    size ((outDimsSpec dims w).map L) = size (specShape dims w L) := by
  unfold outDimsSpec specShape
  induction dims with
  | nil => rfl
  | cons d dims ih =>
    rw [List.flatMap_cons, List.map_append, size_append, ih, List.map_cons, size_cons]
    split <;> simp

/-- **C05 for outputs with a wildcard (partial).**  Full statement: any raw
output whose shape is not the one required by its dims is rejected.  For dims
with a wildcard the code only compares the total number of elements; proved
here: a wrong total size is rejected, if the state has every named dim of the
output.  `wildcard_shape_not_checked` shows the full statement is false. -/
theorem wrong_size_rejected_wildcard_partial (raw : Dict NDArray) (outProps : PropDict)
    (state : State) (inProps : PropDict) (ignoreNames : List String) (ignoreMissing : Bool)
    (hwf : state.WF) (hn : outProps.keys.Nodup)
    (kv : String × QProps) (hkv : kv ∈ outProps) (dims : List String) (a : NDArray)
    (hd : effDims inProps kv.1 kv.2 = some dims) (hs : "*" ∈ dims) (hone : dims.count "*" ≤ 1)
    (hi : kv.1 ∉ ignoreNames) (hm : ignoreMissing = true → kv.1 ∈ raw.keys)
    (ha : raw.get? (getAliasOrName kv.1 outProps inProps) = some a)
    (hknown : ∀ d ∈ dims, d ≠ "*" → ∃ q ∈ requested state inProps, d ∈ q.1.dims)
    (L : String → Nat) (hL : ∀ q ∈ requested state inProps, ∀ d ∈ q.1.dims, L d = q.1.len d)
    (hbad : size a.shape ≠ size (specShape dims (wildSpec (requested state inProps)) L)) :
    ∃ e, restoreDataArrays raw outProps state inProps ignoreNames ignoreMissing = .error e := by
  cases hres : restoreDataArrays raw outProps state inProps ignoreNames ignoreMissing with
  | error e => exact ⟨e, rfl⟩
  | ok out =>
    exfalso
    unfold restoreDataArrays at hres
    obtain ⟨wl, hw, h1⟩ := Exc.bind_ok_iff.1 hres
    obtain ⟨ds, hds, h⟩ := Exc.bind_ok_iff.1 h1
    obtain ⟨inv, hwild, _⟩ := getWildcard_ok hwf hw
    generalize hgi : (if ignoreMissing = true then
      outProps.keys.filter (fun n => n ∉ raw.keys) ++ ignoreNames else ignoreNames) = ignore at hds h
    have hig : kv.1 ∉ ignore := by
      rw [← hgi]
      cases ignoreMissing with
      | false => simpa using hi
      | true =>
        simp only [if_true, List.mem_append, List.mem_filter, decide_eq_true_eq, not_or]
        exact ⟨fun hc => hc.2 (hm rfl), hi⟩
    obtain ⟨rest, e1, e2, e3, e4⟩ := extractOutDims_ok hds (by simpa using hn)
    simp only [List.nil_append] at e1
    subst e1
    obtain ⟨l1, _, _⟩ := restoreLoop_ok h (e4.nodup hn) (fun nd hnd => (e2 nd hnd).1)
    obtain ⟨dims', hd1, hd2⟩ := e3 kv hkv hig
    rw [hd] at hd1; cases hd1
    obtain ⟨da, lens, lens', g1, g2, g3⟩ := l1 _ hd2
    have hmono := g3.mono
    obtain ⟨a', units, a1, a2, a3, a4⟩ := g3.exists_raw
    rw [ha] at a1; cases a1
    rcases a4 with ⟨hs', _⟩ | ⟨_, _, w, hwl, b1, b2, b3⟩
    · exact hs' hs
    · have hww : w = wildSpec (requested state inProps) := by
        rcases hwild with hwild | hwild
        · rw [hwild] at hwl; injection hwl with hwl; exact hwl.symm
        · rw [hwild] at hwl; cases hwl
      obtain ⟨r1, _, _⟩ := NDArray.reshape_ok b3
      apply hbad
      rw [← r1, ← size_outDimsSpec, filled_eq_spec hs hone, hww]
      congr 1
      apply List.map_congr_left
      intro d hdm
      have hk : ∃ q ∈ requested state inProps, d ∈ q.1.dims := by
        obtain ⟨x, hx, hdx⟩ := List.mem_flatMap.1 hdm
        split at hdx
        · obtain ⟨q, hq, hdq, _⟩ := mem_wildSpec.1 hdx
          exact ⟨q, hq, hdq⟩
        · rename_i hne
          rw [List.mem_singleton] at hdx; subst hdx
          exact hknown d hx hne
      obtain ⟨q, hq, hdq⟩ := hk
      obtain ⟨kv', hkv', q1, q2⟩ := mem_requested.1 hq
      obtain ⟨dims', units', a', i1, i2, i3, i4, i5⟩ := inv.entry kv' hkv'
      rw [q1] at i3; cases i3
      rw [hL q hq d hdq, lenOr1, hmono d _ (g2 _ _ (i4 d hdq))]; rfl

/-- Non-vacuity: 3 × 5 values for dims `["z", "*"]` where 3 × 4 are needed. -/
example : ∃ e, restoreDataArrays [("Q", ⟨[3, 5], fun _ => 7⟩)]
    [("Q", { dims := some ["z", "*"], units := some "m" })] Demo.state Demo.props [] false = .error e := by
  refine wrong_size_rejected_wildcard_partial _ _ _ _ _ _ Demo.state_wf (by decide) _ (List.mem_singleton.2 rfl)
    ["z", "*"] ⟨[3, 5], fun _ => 7⟩ rfl (by decide) (by decide) (by simp) (fun h => by cases h) rfl
    (by decide +kernel) (fun d => if d = "z" then 3 else 2) (by decide +kernel) (by decide +kernel)

/-- The exception for a wrong total size is InvalidPropertyDictError, when nothing failed
before it. -/
theorem wrong_size_error_class (raw : Dict NDArray) (outProps inProps : PropDict)
    (w : List String) (lens : Dict Nat) (name : String) (dims : List String)
    (a : NDArray) (hs : "*" ∈ dims)
    (ha : raw.get? (getAliasOrName name outProps inProps) = some a)
    (hknown : ∀ d ∈ filled dims w, ∃ m, lens.get? d = some m)
    (hbad : size ((filled dims w).map (lenOr1 lens)) ≠ size a.shape) :
    restoreOne raw outProps inProps (some w) lens name dims = .error .invalidPropertyDict := by
  unfold restoreOne
  dsimp only
  rw [Dict.get_eq_ok.2 ha]
  simp only [Exc.ok_bind, if_pos hs]
  obtain ⟨l1, _, _⟩ := learnOutLens_mono (zs := dims.zip a.shape) (lens := lens)
  have hknown' : ∀ d ∈ filled dims w, ∃ m, (learnOutLens (dims.zip a.shape) lens).get? d = some m :=
    fun d hd => by obtain ⟨m, hm⟩ := hknown d hd; exact ⟨m, l1 d m hm⟩
  rw [fillDims_isOk hknown']
  simp only [Exc.ok_bind]
  have hmap : (filled dims w).map (lenOr1 (learnOutLens (dims.zip a.shape) lens)) =
      (filled dims w).map (lenOr1 lens) := by
    apply List.map_congr_left
    intro d hd
    obtain ⟨m, hm⟩ := hknown d hd
    simp [lenOr1, hm, l1 d m hm]
  rw [hmap]
  have : a.reshape ((filled dims w).map (lenOr1 lens)) = .error .valueError := by
    unfold NDArray.reshape; rw [if_neg hbad]
  rw [this]; rfl

/-- **C05 is false for wildcard outputs.**  A component declaring dims
`["z", "*"]` (so the array must be 3 × 4) that returns the transposed 4 × 3 array
is not rejected: the call succeeds, and the value the component put at
wildcard position 1 of level 0 (`raw[1, 0]`) is *not* the value the returned
DataArray has at level 0, x = 0, y = 1. -/
theorem wildcard_shape_not_checked :
    ∃ (state : State) (inProps outProps : PropDict) (raw : Dict NDArray) (a : NDArray)
      (out : Dict DataArray) (da : DataArray) (ix : String → Nat),
      state.WF ∧ raw.get? "Q" = some a ∧
      restoreDataArrays raw outProps state inProps [] false = .ok out ∧ out.get? "Q" = some da ∧
      a.shape ≠ specShape ["z", "*"] (wildSpec (requested state inProps)) da.len ∧
      da.at' ix ≠ a.get [ravel ((wildSpec (requested state inProps)).map da.len)
        ((wildSpec (requested state inProps)).map ix), ix "z"] := by
  have h : Exc.test (restoreDataArrays
      [("Q", ⟨[4, 3], fun i => (i.getD 0 0 : Nat) * 10 + (i.getD 1 0 : Nat)⟩)]
      [("Q", { dims := some ["z", "*"], units := some "m" })] Demo.state Demo.props [] false) (fun out =>
      Exc.test (out.get "Q") fun da =>
        decide ([4, 3] ≠ specShape ["z", "*"] (wildSpec (requested Demo.state Demo.props)) da.len) &&
        decide (da.at' (fun d => if d = "y" then 1 else 0) ≠
          (1 : Rat) * 10) &&
        decide (ravel ((wildSpec (requested Demo.state Demo.props)).map da.len)
          ((wildSpec (requested Demo.state Demo.props)).map (fun d => if d = "y" then 1 else 0)) = 1)) = true := by
    decide +kernel
  obtain ⟨out, h1, h2⟩ := Exc.test_ok h
  obtain ⟨da, h3, h4⟩ := Exc.test_ok h2
  simp only [Bool.and_eq_true, decide_eq_true_eq] at h4
  refine ⟨_, _, _, _, _, out, da, fun d => if d = "y" then 1 else 0, Demo.state_wf, rfl, h1,
    Dict.get_eq_ok.1 h3, h4.1.1, ?_⟩
  rw [h4.2]
  intro hc
  apply h4.1.2
  rw [hc]
  decide +kernel

/-- **C06, values.**  Whatever arrays a component returns, provided they have the
shapes its dims prescribe (`L` is one length per dimension name, the state's
length for every dimension of an input): the call succeeds, and each output's
value at named coordinates is the value at the corresponding position of the raw
array, with `*` read as the row-major position over the matched dims. -/
theorem restored_values (state : State) (inProps outProps : PropDict) (raw : Dict NDArray)
    (ignoreNames : List String) (L : String → Nat) (hwf : state.WF) (hn : outProps.keys.Nodup)
    (hin : ∃ R raw0, getNumpyArrays R state inProps = .ok raw0)
    (hL : ∀ q ∈ requested state inProps, ∀ d ∈ q.1.dims, L d = q.1.len d)
    (hout : ∀ kv ∈ outProps, kv.1 ∉ ignoreNames → ∃ dims units a,
      effDims inProps kv.1 kv.2 = some dims ∧ kv.2.units = some units ∧ dims.count "*" ≤ 1 ∧
      ("*" ∈ dims → ∃ ikv ∈ inProps, ∃ idims, ikv.2.dims = some idims ∧ "*" ∈ idims) ∧
      raw.get? (getAliasOrName kv.1 outProps inProps) = some a ∧
      a.shape = specShape dims (wildSpec (requested state inProps)) L) :
    ∃ out, restoreDataArrays raw outProps state inProps ignoreNames false = .ok out ∧
      ∀ kv ∈ outProps, kv.1 ∉ ignoreNames → ∃ dims units a da,
        effDims inProps kv.1 kv.2 = some dims ∧ kv.2.units = some units ∧
        raw.get? (getAliasOrName kv.1 outProps inProps) = some a ∧
        out.get? kv.1 = some da ∧ da.attrs = [("units", units)] ∧
        da.dims = outDimsSpec dims (wildSpec (requested state inProps)) ∧
        da.arr.shape = da.dims.map L ∧
        ∀ ix : String → Nat, InB (da.dims.map ix) da.arr.shape →
          da.at' ix = a.get (specIndex dims (wildSpec (requested state inProps)) L ix) := by
  obtain ⟨R, raw0, h⟩ := hin
  unfold getNumpyArrays at h
  obtain ⟨wl, hw, h⟩ := Exc.bind_ok_iff.1 h
  obtain ⟨inv, hwild, hnone⟩ := getWildcard_ok hwf hw
  set w := wildSpec (requested state inProps) with hwdef
  have hstar : ∀ kv ∈ inProps, ∀ d, kv.2.dims = some d → "*" ∈ d → wl.1 = some w := by
    intro kv hkv d hd hs
    rcases hwild with hwild | hwild
    · exact hwild
    · exact absurd hs (hnone.1 hwild kv hkv d hd)
  have hLm : ∀ d m, wl.2.get? d = some m → L d = m := by
    intro d m hm
    rcases inv.origin d m hm with h0 | ⟨q, hq, hd⟩
    · cases h0
    · obtain ⟨kv, hkv, q1, q2⟩ := mem_requested.1 hq
      obtain ⟨dims, units, a, i1, i2, i3, i4, i5⟩ := inv.entry kv hkv
      rw [q1] at i3; cases i3
      have := i4 d hd
      rw [hm] at this; injection this with this
      rw [hL q hq d hd, this]
  have hwk : ∀ d ∈ w, ∃ m, wl.2.get? d = some m := by
    intro d hd
    obtain ⟨q, hq, hd1, _⟩ := mem_wildSpec.1 hd
    obtain ⟨kv, hkv, q1, q2⟩ := mem_requested.1 hq
    obtain ⟨dims, units, a, i1, i2, i3, i4, i5⟩ := inv.entry kv hkv
    rw [q1] at i3; cases i3
    exact ⟨_, i4 d hd1⟩
  obtain ⟨ds, hds⟩ := extractOutDims_isOk (inProps := inProps) (ignore := ignoreNames)
    (outProps := outProps) (acc := []) (by
      intro kv hkv hi
      obtain ⟨dims, _, _, h1, _⟩ := hout kv hkv hi
      exact ⟨dims, h1⟩)
  obtain ⟨rest, e1, e2, e3, e4⟩ := extractOutDims_ok hds (by simpa using hn)
  simp only [List.nil_append] at e1
  subst e1
  have hraw : ∀ nd ∈ ds, nd.1 ∉ ignoreNames ∧ ∃ p units a, (nd.1, p) ∈ outProps ∧
      p.units = some units ∧ nd.2.count "*" ≤ 1 ∧ ("*" ∈ nd.2 → wl.1 = some w) ∧
      raw.get? (getAliasOrName nd.1 outProps inProps) = some a ∧ a.shape = specShape nd.2 w L := by
    intro nd hnd
    obtain ⟨hi, p, h1, h2⟩ := e2 nd hnd
    obtain ⟨dims, units, a, k1, k2, k3, k4, k5, k6⟩ := hout _ h1 hi
    simp only at k1 k2 k5
    rw [h2] at k1; cases k1
    refine ⟨hi, p, units, a, h1, k2, k3, ?_, k5, k6⟩
    intro hs
    obtain ⟨ikv, m1, idims, m2, m3⟩ := k4 hs
    exact hstar ikv m1 idims m2 m3
  obtain ⟨out, hres⟩ := restoreLoop_isOk (raw := raw) (outProps := outProps) (inProps := inProps)
    (wild := wl.1) (w := w) (L := L) (ignore := ignoreNames) (ds := ds) (lens0 := wl.2) (out0 := [])
    (by
      intro nd hnd _
      obtain ⟨_, p, units, a, k1, k2, k3, k4, k5, k6⟩ := hraw nd hnd
      exact ⟨a, units, k5, by rw [Dict.get?_of_mem hn k1]; exact k2, k4, k3, k6⟩) hLm hwk
  refine ⟨out, ?_, ?_⟩
  · unfold restoreDataArrays
    rw [hw]
    simp only [Exc.ok_bind, Bool.false_eq_true, if_false, hds]
    exact hres
  · intro kv hkv hi
    obtain ⟨dims, hd1, hd2⟩ := e3 kv hkv hi
    obtain ⟨_, p, units, a, k1, k2, k3, k4, k5, k6⟩ := hraw _ hd2
    simp only at k1 k3 k4 k5 k6
    have hp : p = kv.2 := by
      have h1 := Dict.get?_of_mem hn k1
      have h2 := Dict.get?_of_mem hn hkv
      rw [h2] at h1; injection h1 with h1; exact h1.symm
    subst hp
    obtain ⟨da, lens, lens', o1, o2, o3⟩ := restoreLoop_ok_spec (w := w) (L := L) hres
      (e4.nodup hn) (fun nd hnd => (e2 nd hnd).1)
      (by
        intro nd hnd
        obtain ⟨_, _, _, a, _, _, _, _, g5, g6⟩ := hraw nd hnd
        exact ⟨a, g5, g6⟩) hLm _ hd2
    obtain ⟨a', units', a1, a2, a3, a4⟩ := o3.exists_raw
    rw [Dict.get?_of_mem hn hkv] at a2
    simp only [Option.bind_some] at a2
    rw [k2] at a2; cases a2
    simp only at a1
    rw [k5] at a1; cases a1
    have hdd : da.dims = outDimsSpec dims w := by
      rcases a4 with ⟨hs, hdd, _⟩ | ⟨hs, _, w', hw', hdd, _⟩
      · rw [hdd, outDimsSpec_no_star hs]
      · rw [hdd]
        have := k4 hs
        rw [hw'] at this; injection this with this
        rw [this, filled_eq_spec hs k3]
    have hshape : da.arr.shape = da.dims.map L := by
      rcases a4 with ⟨hs, hdd, harr, _⟩ | ⟨hs, hl, w', hw', hdd, hkn, hr⟩
      · rw [harr, hdd, k6]
        unfold specShape
        apply List.map_congr_left
        intro d hd; rw [if_neg]; rintro rfl; exact hs hd
      · rw [(NDArray.reshape_ok hr).2.1, hdd]
        apply List.map_congr_left
        intro d hd
        obtain ⟨m, hm⟩ := hkn d hd
        rw [o2 d m hm, lenOr1, hm]; rfl
    have hmemd : ∀ d, d ∈ da.dims ↔ (d ∈ dims ∧ d ≠ "*") ∨ ("*" ∈ dims ∧ d ∈ w) := by
      intro d
      rw [hdd]
      unfold outDimsSpec
      rw [List.mem_flatMap]
      constructor
      · rintro ⟨x, hx, hd⟩
        by_cases hxs : x = "*"
        · subst hxs; simp at hd; exact Or.inr ⟨hx, hd⟩
        · simp [hxs] at hd; subst hd; exact Or.inl ⟨hx, hxs⟩
      · rintro (⟨h1, h2⟩ | ⟨h1, h2⟩)
        · exact ⟨d, h1, by simp [h2]⟩
        · exact ⟨"*", h1, by simpa using h2⟩
    refine ⟨dims, units, a, da, hd1, k2, k5, o1, a3, hdd, hshape, ?_⟩
    intro ix hix
    rw [hshape, inB_map] at hix
    exact o3.values k5 (w := w) k4 k3
      (fun d _ _ m hm => o2 d m hm) (fun _ d _ m hm => o2 d m hm) k6 ix
      (fun d h1 h2 => hix d ((hmemd d).2 (Or.inl ⟨h1, h2⟩)))
      (fun hs d h1 => hix d ((hmemd d).2 (Or.inr ⟨hs, h1⟩)))

/-- Non-vacuity of `restored_values`: a new output on `["z", "*", "q"]` with a new
dimension `q`. -/
example : ∃ out da, restoreDataArrays
      [("Q", ⟨[3, 4, 2], fun i => (i.getD 0 0 : Nat) * 100 + (i.getD 1 0 : Nat) * 10 + (i.getD 2 0 : Nat)⟩)]
      [("Q", { dims := some ["z", "*", "q"], units := some "m" })] Demo.state Demo.props [] false = .ok out ∧
    out.get? "Q" = some da ∧ da.dims = ["z", "x", "y", "q"] ∧
    da.at' (fun d => if d = "x" ∨ d = "q" then 1 else 0) = 21 := by
  have h : Exc.test (restoreDataArrays
      [("Q", ⟨[3, 4, 2], fun i => (i.getD 0 0 : Nat) * 100 + (i.getD 1 0 : Nat) * 10 + (i.getD 2 0 : Nat)⟩)]
      [("Q", { dims := some ["z", "*", "q"], units := some "m" })] Demo.state Demo.props [] false) (fun out =>
      Exc.test (out.get "Q") fun da => decide (da.dims = ["z", "x", "y", "q"]) &&
        decide (da.at' (fun d => if d = "x" ∨ d = "q" then 1 else 0) = 21)) = true := by decide +kernel
  obtain ⟨out, h1, h2⟩ := Exc.test_ok h
  obtain ⟨da, h3, h4⟩ := Exc.test_ok h2
  simp only [Bool.and_eq_true, decide_eq_true_eq] at h4
  exact ⟨out, da, h1, Dict.get_eq_ok.1 h3, h4.1, h4.2⟩

/-- **C04.**  Handing the extracted arrays back unchanged restores every
quantity: no exception, the declared units, and at every named coordinate the
same physical value as in the state. -/
theorem extract_restore_roundtrip (R : Registry) (hR : R.Faithful) (state : State)
    (props outProps : PropDict) (raw : Dict NDArray) (hwf : state.WF) (hsf : state.StarFree)
    (hone : OneStar props) (hkeys : (props.map outName).Nodup)
    (hn : outProps.keys.Nodup)
    (hout : ∀ kv ∈ outProps, ∃ ip, (kv.1, ip) ∈ props ∧ props.get? kv.1 = some ip ∧
      effDims props kv.1 kv.2 = ip.dims ∧ kv.2.units = ip.units ∧
      getAliasOrName kv.1 outProps props = outName (kv.1, ip))
    (h : getNumpyArrays R state props = .ok raw) :
    ∃ out, restoreDataArrays raw outProps state props [] false = .ok out ∧
      ∀ kv ∈ outProps, ∃ a own units da, Dict.get? state kv.1 = some (.da a) ∧
        a.attrs.get? "units" = some own ∧ kv.2.units = some units ∧
        out.get? kv.1 = some da ∧ da.attrs.get? "units" = some units ∧
        (∀ d ∈ a.dims, d ∈ da.dims) ∧
        ∀ ix : String → Nat, InB (da.dims.map ix) da.arr.shape →
          SamePhysical R units (da.at' ix) own (a.at' ix) := by
  obtain ⟨wl, hw, inv, hwl, hstar, hall⟩ := getNumpyArrays_full hR hwf hsf hone hkeys h
  have hLs := lenSpec_of_inv inv
  set w := wildSpec (requested state props) with hwdef
  have hL : ∀ d m, wl.2.get? d = some m → lenOr1 wl.2 d = m := fun d m hm => by simp [lenOr1, hm]
  have hwk : ∀ d ∈ w, ∃ m, wl.2.get? d = some m := by
    intro d hd
    obtain ⟨q, hq, hd1, _⟩ := mem_wildSpec.1 hd
    obtain ⟨kv, hkv, q1, q2⟩ := mem_requested.1 hq
    obtain ⟨dims, units, a, i1, i2, i3, i4, i5⟩ := inv.entry kv hkv
    rw [q1] at i3; cases i3
    exact ⟨_, i4 d hd1⟩
  obtain ⟨ds, hds⟩ := extractOutDims_isOk (inProps := props) (ignore := []) (outProps := outProps)
    (acc := []) (by
      intro kv hkv _
      obtain ⟨ip, h1, _, h2, _⟩ := hout kv hkv
      obtain ⟨dims, units, a, own, r, g1, _⟩ := hall _ h1
      exact ⟨dims, by rw [h2]; exact g1⟩)
  obtain ⟨rest, e1, e2, e3, e4⟩ := extractOutDims_ok hds (by simpa using hn)
  simp only [List.nil_append] at e1
  subst e1
  -- each output's raw array
  have hraw : ∀ nd ∈ ds, ∃ kv ∈ outProps, kv.1 = nd.1 ∧ ∃ ip, (kv.1, ip) ∈ props ∧
      ip.dims = some nd.2 ∧ ∃ units a own r, ip.units = some units ∧ kv.2.units = some units ∧
      Dict.get? state kv.1 = some (.da a) ∧ a.attrs.get? "units" = some own ∧
      raw.get? (getAliasOrName nd.1 outProps props) = some r ∧
      r.shape = specShape nd.2 w (lenOr1 wl.2) ∧
      ∀ ix : String → Nat, (∀ d ∈ nd.2, d ≠ "*" → ix d < lenOr1 wl.2 d) →
          ("*" ∈ nd.2 → ∀ d ∈ w, ix d < lenOr1 wl.2 d) →
          SamePhysical R units (r.get (specIndex nd.2 w (lenOr1 wl.2) ix)) own (a.at' ix) := by
    intro nd hnd
    obtain ⟨_, p, h1, h2⟩ := e2 nd hnd
    obtain ⟨ip, k1, k2, k3, k4, k5⟩ := hout _ h1
    obtain ⟨dims, units, a, own, r, g1, g2, g3, g4, g5, g6, g7⟩ := hall _ k1
    simp only at k3 k4 k5
    rw [h2] at k3
    rw [← k3] at g1
    cases g1
    exact ⟨_, h1, rfl, ip, k1, k3.symm, units, a, own, r, g2, by rw [k4]; exact g2, g3, g4,
      by rw [k5]; exact g5, g6, g7⟩
  have hstar' : ∀ nd ∈ ds, "*" ∈ nd.2 → wl.1 = some w := by
    intro nd hnd hs
    obtain ⟨kv, _, _, ip, k1, k2, _⟩ := hraw nd hnd
    exact hstar _ k1 _ k2 hs
  have hcount : ∀ nd ∈ ds, nd.2.count "*" ≤ 1 := by
    intro nd hnd
    obtain ⟨kv, _, _, ip, k1, k2, _⟩ := hraw nd hnd
    exact hone _ k1 _ k2
  obtain ⟨out, hres⟩ := restoreLoop_isOk (raw := raw) (outProps := outProps) (inProps := props)
    (wild := wl.1) (w := w) (L := lenOr1 wl.2) (ignore := []) (ds := ds) (lens0 := wl.2) (out0 := [])
    (by
      intro nd hnd _
      obtain ⟨kv, m1, m2, ip, k1, k2, units, a, own, r, g1, g2, g3, g4, g5, g6, _⟩ := hraw nd hnd
      refine ⟨r, units, g5, ?_, hstar' nd hnd, hcount nd hnd, g6⟩
      rw [← m2, Dict.get?_of_mem hn m1]; exact g2) hL hwk
  refine ⟨out, ?_, ?_⟩
  · unfold restoreDataArrays
    rw [hw]
    simp only [Exc.ok_bind, Bool.false_eq_true, if_false, hds]
    exact hres
  · intro kv hkv
    obtain ⟨dims, hd1, hd2⟩ := e3 kv hkv (by simp)
    obtain ⟨kv', m1, m2, ip, k1, k2, units, a, own, r, g1, g2, g3, g4, g5, g6, g7⟩ := hraw _ hd2
    have hkk : kv' = kv := by
      have h1 := Dict.get?_of_mem hn m1
      have h2 := Dict.get?_of_mem hn hkv
      simp only at m2
      rw [m2, h2] at h1
      injection h1 with h1
      exact Prod.ext m2 h1.symm
    subst hkk
    obtain ⟨da, lens, lens', o1, o2, o3⟩ := restoreLoop_ok_spec (w := w) (L := lenOr1 wl.2) hres
      (e4.nodup hn) (fun nd hnd => (e2 nd hnd).1)
      (by
        intro nd hnd
        obtain ⟨_, _, _, _, _, _, _, _, _, r, _, _, _, _, g5, g6, _⟩ := hraw nd hnd
        exact ⟨r, g5, g6⟩) hL _ hd2
    obtain ⟨a', units', a1, a2, a3, a4⟩ := o3.exists_raw
    rw [Dict.get?_of_mem hn hkv] at a2
    simp only [Option.bind_some] at a2
    rw [g2] at a2; cases a2
    rw [g5] at a1; cases a1
    -- dims and shape of the result
    have hdd : da.dims = outDimsSpec dims w := by
      rcases a4 with ⟨hs, hdd, _⟩ | ⟨hs, _, w', hw', hdd, _⟩
      · rw [hdd, outDimsSpec_no_star hs]
      · rw [hdd]
        have := hstar' _ hd2 hs
        rw [hw'] at this; injection this with this
        rw [this, filled_eq_spec hs (hcount _ hd2)]
    have hshape : da.arr.shape = da.dims.map (lenOr1 wl.2) := by
      rcases a4 with ⟨hs, hdd, harr, _⟩ | ⟨hs, hl, w', hw', hdd, hkn, hr⟩
      · rw [harr, hdd, g6]
        unfold specShape
        apply List.map_congr_left
        intro d hd; rw [if_neg]; rintro rfl; exact hs hd
      · rw [(NDArray.reshape_ok hr).2.1, hdd]
        apply List.map_congr_left
        intro d hd
        obtain ⟨m, hm⟩ := hkn d hd
        rw [o2 d m hm, lenOr1, hm]; rfl
    have hmemd : ∀ d, d ∈ da.dims ↔ (d ∈ dims ∧ d ≠ "*") ∨ ("*" ∈ dims ∧ d ∈ w) := by
      intro d
      rw [hdd]
      unfold outDimsSpec
      rw [List.mem_flatMap]
      constructor
      · rintro ⟨x, hx, hd⟩
        by_cases hxs : x = "*"
        · subst hxs; simp at hd; exact Or.inr ⟨hx, hd⟩
        · simp [hxs] at hd; subst hd; exact Or.inl ⟨hx, hxs⟩
      · rintro (⟨h1, h2⟩ | ⟨h1, h2⟩)
        · exact ⟨d, h1, by simp [h2]⟩
        · exact ⟨"*", h1, by simpa using h2⟩
    obtain ⟨dims', units', a', i1, i2, i3, i4, i5⟩ := inv.entry _ k1
    simp only at k2
    rw [k2] at i1; cases i1
    rw [g3] at i3; cases i3
    refine ⟨a, own, units, da, g3, g4, g2, o1, by rw [a3]; rfl, ?_, ?_⟩
    · intro d hd
      rw [hmemd]
      by_cases hin : d ∈ dims
      · exact Or.inl ⟨hin, fun e => hsf _ _ g3 (e ▸ hd)⟩
      · exact Or.inr ⟨(i5 d hd).resolve_left hin,
          mem_wildSpec.2 ⟨(a, dims), mem_requested.2 ⟨_, k1, g3, k2⟩, hd, hin⟩⟩
    · intro ix hix
      rw [hshape, inB_map] at hix
      rw [o3.values g5 (w := w) (fun hs => hstar' _ hd2 hs) (hcount _ hd2)
        (fun d _ _ m hm => o2 d m hm) (fun _ d _ m hm => o2 d m hm) g6 ix
        (fun d h1 h2 => hix d ((hmemd d).2 (Or.inl ⟨h1, h2⟩)))
        (fun hs d h1 => hix d ((hmemd d).2 (Or.inr ⟨hs, h1⟩)))]
      exact g7 ix (fun d h1 h2 => hix d ((hmemd d).2 (Or.inl ⟨h1, h2⟩)))
        (fun hs d h1 => hix d ((hmemd d).2 (Or.inr ⟨hs, h1⟩)))

/-- Non-vacuity of C04: the aliased, transposed, flattened and converted
quantities of the demo state satisfy the hypotheses. -/
example : ∃ raw, getNumpyArrays Demo.reg Demo.state Demo.props = .ok raw ∧
    ∀ kv ∈ Demo.props, ∃ ip, (kv.1, ip) ∈ Demo.props ∧ Demo.props.get? kv.1 = some ip ∧
      effDims Demo.props kv.1 kv.2 = ip.dims ∧ kv.2.units = ip.units ∧
      getAliasOrName kv.1 Demo.props Demo.props = outName (kv.1, ip) := by
  have h : Exc.test (getNumpyArrays Demo.reg Demo.state Demo.props) (fun _ => true) = true := by
    decide +kernel
  obtain ⟨raw, h1, _⟩ := Exc.test_ok h
  refine ⟨raw, h1, ?_⟩
  intro kv hkv
  simp only [Demo.props, List.mem_cons, List.not_mem_nil, or_false] at hkv
  rcases hkv with rfl | rfl <;> exact ⟨_, by simp [Demo.props], rfl, rfl, rfl, rfl⟩

/-- **C07 (partial: outputs without alias).**  Full statement: the same for all
outputs; false for aliased ones, see `preallocated_alias_not_accepted`.
Arrays pre-allocated for the outputs fit: when every output
dimension occurs in the dims of some non-tracer input, allocation succeeds, each
array has the length required along each of its dims, and whatever values the
component writes in arrays of those shapes, the result is accepted.
-/
theorem preallocated_arrays_fit_partial (R : Registry) (hR : R.Faithful) (state : State)
    (props outProps : PropDict) (raw : Dict NDArray) (registered prepended : List String)
    (hwf : state.WF) (hsf : state.StarFree) (hone : OneStar props)
    (hkeys : (props.map outName).Nodup) (hn : outProps.keys.Nodup)
    (h : getNumpyArrays R state props = .ok raw)
    (hout : ∀ kv ∈ outProps, getAliasOrName kv.1 outProps props = kv.1 ∧ kv.2.units ≠ none ∧
      ∃ dims, effDims props kv.1 kv.2 = some dims ∧ dims.count "*" ≤ 1 ∧
        ∀ d ∈ dims, ∃ ikv ∈ props, ikv.2.tracer = false ∧ ∃ idims, ikv.2.dims = some idims ∧ d ∈ idims) :
    ∃ alloc L, initArrays outProps raw props none registered prepended = .ok alloc ∧
      LenSpec (requested state props) L ∧
      (∀ kv ∈ outProps, ∃ dims a, effDims props kv.1 kv.2 = some dims ∧ alloc.get? kv.1 = some a ∧
        a.shape = specShape dims (wildSpec (requested state props)) L) ∧
      ∀ filled : Dict NDArray,
        (∀ kv ∈ outProps, ∃ a b, alloc.get? kv.1 = some a ∧ filled.get? kv.1 = some b ∧
          b.shape = a.shape) →
        ∃ out, restoreDataArrays filled outProps state props [] false = .ok out := by
  obtain ⟨wl, hw, inv, hwl, hstar, hall⟩ := getNumpyArrays_full hR hwf hsf hone hkeys h
  set w := wildSpec (requested state props) with hwdef
  let L : String → Nat := lenOr1 wl.2
  let Ls : String → Nat := fun d => if d = "*" then size (w.map L) else L d
  obtain ⟨lens, r1, r2, r3, _⟩ := rawDimLens_isOk (L := Ls) (raw := raw) (props := props) (lens := [])
    (by intro d m hm; cases hm) (by
      intro kv hkv _
      obtain ⟨dims, units, a, own, r, g1, _, _, _, g5, g6, _⟩ := hall kv hkv
      exact ⟨dims, r, g1, g5, g6⟩)
  obtain ⟨ds, hds⟩ := extractOutDims_isOk (inProps := props) (ignore := []) (outProps := outProps)
    (acc := []) (by
      intro kv hkv _
      obtain ⟨_, _, dims, k1, _⟩ := hout kv hkv
      exact ⟨dims, k1⟩)
  obtain ⟨rest, e1, e2, e3, e4⟩ := extractOutDims_ok hds (by simpa using hn)
  simp only [List.nil_append] at e1
  subst e1
  obtain ⟨alloc, i1, i2, _⟩ := initLoop_isOk (L := Ls) (skip := []) (ds := ds) (out := []) r2
    (e4.nodup hn) (by
      intro nd hnd _ d hd
      obtain ⟨_, p, p1, p2⟩ := e2 nd hnd
      obtain ⟨_, _, dims, k1, _, k2⟩ := hout _ p1
      simp only at k1
      rw [p2] at k1; cases k1
      obtain ⟨ikv, m1, m2, idims, m3, m4⟩ := k2 d hd
      exact r3 ikv m1 m2 idims m3 d m4)
  have hshape : ∀ kv ∈ outProps, ∀ dims, effDims props kv.1 kv.2 = some dims →
      (kv.1, dims) ∈ ds ∧ alloc.get? kv.1 = some (NDArray.zeros (specShape dims w L)) := by
    intro kv hkv dims hd
    obtain ⟨dims', k1, k2⟩ := e3 kv hkv (by simp)
    rw [hd] at k1; cases k1
    exact ⟨k2, i2 _ k2 (by simp)⟩
  refine ⟨alloc, L, ?_, lenSpec_of_inv inv, ?_, ?_⟩
  · unfold initArrays
    rw [r1]
    simp only [Exc.ok_bind, hds, Option.isSome_none, Bool.false_eq_true, if_false, i1]
  · intro kv hkv
    obtain ⟨_, _, dims, k1, _, k2⟩ := hout kv hkv
    exact ⟨dims, _, k1, (hshape kv hkv dims k1).2, rfl⟩
  · intro fl hfl
    have hL : ∀ d m, wl.2.get? d = some m → L d = m := fun d m hm => by simp [L, lenOr1, hm]
    have hwk : ∀ d ∈ w, ∃ m, wl.2.get? d = some m := by
      intro d hd
      obtain ⟨q, hq, hd1, _⟩ := mem_wildSpec.1 hd
      obtain ⟨kv, hkv, q1, q2⟩ := mem_requested.1 hq
      obtain ⟨dims, units, a, i1, i2, i3, i4, i5⟩ := inv.entry kv hkv
      rw [q1] at i3; cases i3
      exact ⟨_, i4 d hd1⟩
    obtain ⟨out, hres⟩ := restoreLoop_isOk (raw := fl) (outProps := outProps) (inProps := props)
      (wild := wl.1) (w := w) (L := L) (ignore := []) (ds := ds) (lens0 := wl.2) (out0 := [])
      (by
        intro nd hnd _
        obtain ⟨_, p, p1, p2⟩ := e2 nd hnd
        obtain ⟨k0, k1, dims, k2, k3, k4⟩ := hout _ p1
        simp only at k0 k1 k2
        rw [p2] at k2; cases k2
        obtain ⟨a, b, f1, f2, f3⟩ := hfl _ p1
        obtain ⟨_, s2⟩ := hshape _ p1 _ p2
        rw [f1] at s2; injection s2 with s2
        obtain ⟨u, hu⟩ := Option.ne_none_iff_exists'.1 k1
        refine ⟨b, u, by rw [k0]; exact f2, ?_, ?_, k3, by rw [f3, s2]; rfl⟩
        · rw [Dict.get?_of_mem hn p1]; exact hu
        · intro hs
          obtain ⟨ikv, m1, m2, idims, m3, m4⟩ := k4 "*" hs
          exact hstar ikv m1 idims m3 m4) hL hwk
    refine ⟨out, ?_⟩
    unfold restoreDataArrays
    rw [hw]
    simp only [Exc.ok_bind, Bool.false_eq_true, if_false, hds]
    exact hres

/-- Non-vacuity of C07: an output with a wildcard on the demo inputs. -/
example : Exc.test (getNumpyArrays Demo.reg Demo.state Demo.props >>= fun raw =>
    initArrays [("Q", { dims := some ["*", "z"], units := some "m" })] raw Demo.props none [] [])
    (fun al => Exc.test (al.get "Q") fun r => decide (r.shape = [4, 3])) = true := by
  decide +kernel

/-- For an output with an alias the pre-allocated array is stored under the full
name while restoring looks for the alias: a component that fills and returns
exactly the arrays it was given is rejected with a KeyError. -/
theorem preallocated_alias_not_accepted :
    ∃ (R : Registry) (state : State) (props outProps : PropDict) (raw alloc : Dict NDArray),
      getNumpyArrays R state props = .ok raw ∧
      initArrays outProps raw props none [] [] = .ok alloc ∧
      restoreDataArrays alloc outProps state props [] false = .error .keyError := by
  have h : Exc.test (getNumpyArrays Demo.reg Demo.state Demo.props) (fun raw =>
    Exc.test (initArrays [("Q", { dims := some ["z"], units := some "m", aliasName := some "q" })]
      raw Demo.props none [] []) fun alloc =>
    Exc.failsWith (restoreDataArrays alloc
      [("Q", { dims := some ["z"], units := some "m", aliasName := some "q" })]
      Demo.state Demo.props [] false) .keyError) = true := by decide +kernel
  obtain ⟨raw, h1, h2⟩ := Exc.test_ok h
  obtain ⟨alloc, h3, h4⟩ := Exc.test_ok h2
  exact ⟨_, _, _, _, raw, alloc, h1, h3, Exc.failsWith_error h4⟩

end Verif

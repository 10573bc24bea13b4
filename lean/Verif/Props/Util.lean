import Verif.Lemmas.Util
import Verif.Spec.Demo
/-!
# C08, C09, C55: util.py
-/

namespace Verif

/-- The dims ravelled into `*`: those of the array that are not listed. -/
def unlisted (a : DataArray) (outDims : List String) : List String :=
  a.dims.filter fun d => d ∉ outDims

/-- Length along a listed dim: that of the array, or 1 when it lacks it. -/
def lenOrOne (a : DataArray) (d : String) : Nat := if d ∈ a.dims then a.len d else 1

/-- **C09, values.**  A successful `get_numpy_array(a, out_dims)` has one axis per
entry of `out_dims` with the lengths of `a` (1 for absent dims; the product of
the unlisted dims for `*`) and holds at every position the value `a` has at the
same named coordinates. -/
theorem get_numpy_array_layout (a : DataArray) (hwf : a.WF) (hs : "*" ∉ a.dims)
    (outDims : List String) (r : NDArray) (m : Option (List String))
    (h : utilGetNumpyArray a outDims none = .ok (r, m)) :
    r.shape = specShape outDims (unlisted a outDims) (lenOrOne a) ∧
    ∀ ix : String → Nat, a.InBounds ix → (∀ d ∈ outDims, d ∉ a.dims → d ≠ "*" → ix d = 0) →
      r.get (specIndex outDims (unlisted a outDims) (lenOrOne a) ix) = a.at' ix := by
  unfold utilGetNumpyArray at h
  split at h
  · rename_i hc
    cases h
    obtain ⟨h1, h2⟩ := hc
    have : outDims = [] := List.length_eq_zero_iff.1 h2
    subst this
    have h3 : a.dims = [] := List.length_eq_zero_iff.1 (hwf.1.trans h1)
    refine ⟨List.length_eq_zero_iff.1 h1, ?_⟩
    intro ix _ _
    simp [specIndex, DataArray.at', h3]
  · clear * - h hwf hs
    obtain ⟨names, hn, h1⟩ := Exc.bind_ok_iff.1 h
    rw [Exc.ok_bind] at h1
    obtain ⟨hN, _, _⟩ := inputArrayDimNames_ok hs hn
    rw [mapM_get_ok hN, Exc.ok_bind] at h1
    split at h1
    · rename_i hall
      obtain ⟨slices, hsl, h2⟩ := Exc.bind_ok_iff.1 h1
      obtain ⟨final, hf, h3⟩ := Exc.bind_ok_iff.1 h2
      obtain ⟨t, ht, h4⟩ := Exc.bind_ok_iff.1 h3
      obtain ⟨v, hv, h5⟩ := Exc.bind_ok_iff.1 h4
      obtain ⟨r', hr, h6⟩ := Exc.bind_ok_iff.1 h5
      cases h6
      obtain ⟨_, c2, c3⟩ := utilCore_ok hwf hN ⟨slices, final, t, v, hsl, hf, ht, hv, hr⟩ hall
      refine ⟨?_, ?_⟩
      · rw [c2]
        unfold specShape
        apply List.map_congr_left
        intro d hd
        by_cases hds : d = "*"
        · subst hds
          simp only [if_true, dirNames]
          congr 1
          apply List.map_congr_left
          intro x hx
          simp only [lenOrOne, unlisted] at hx ⊢
          rw [if_pos (List.mem_filter.1 hx).1]
        · rw [if_neg hds, dirNames_single hwf.2 hds]
          unfold lenOrOne
          split <;> simp
      · intro ix hix h0
        rw [← c3 ix hix]
        congr 1
        unfold specIndex
        apply List.map_congr_left
        intro d hd
        by_cases hds : d = "*"
        · subst hds
          simp only [if_true, dirNames, unlisted]
          congr 1
          apply List.map_congr_left
          intro x hx
          unfold lenOrOne
          rw [if_pos (List.mem_filter.1 hx).1]
        · rw [if_neg hds, dirNames_single hwf.2 hds]
          split
          · simp [ravel]
          · rename_i hm
            rw [h0 d hd hm hds]; rfl
    · cases h1

/-- **C09, errors.**  For `out_dims` without repeats: the call succeeds exactly
when every dim of `a` is listed or there is a `*`, and every listed name other
than x, y, z and `*` is a dim of `a`; an absent name raises
NoMatchForDirectionError, an unlisted dim raises DimensionNotInOutDimsError. -/
theorem get_numpy_array_errors (a : DataArray) (hwf : a.WF) (hs : "*" ∉ a.dims)
    (outDims : List String) (hn : outDims.Nodup) :
    ((∃ d ∈ outDims, d ∉ ["x", "y", "z", "*"] ∧ d ∉ a.dims) →
      utilGetNumpyArray a outDims none = .error .noMatchForDirection) ∧
    ((∀ d ∈ outDims, d ∉ ["x", "y", "z", "*"] → d ∈ a.dims) →
      (∃ d ∈ a.dims, d ∉ outDims) → "*" ∉ outDims →
      utilGetNumpyArray a outDims none = .error .dimNotInOutDims) ∧
    ((∀ d ∈ outDims, d ∉ ["x", "y", "z", "*"] → d ∈ a.dims) →
      (∀ d ∈ a.dims, d ∈ outDims ∨ "*" ∈ outDims) →
      ∃ r m, utilGetNumpyArray a outDims none = .ok (r, m)) := by
  refine ⟨?_, ?_, ?_⟩
  · intro h
    unfold utilGetNumpyArray
    rw [if_neg]
    · rw [inputArrayDimNames_error h]; rfl
    · rintro ⟨_, h2⟩
      obtain ⟨d, hd, _⟩ := h
      rw [List.length_eq_zero_iff.1 h2] at hd; cases hd
  · rintro h1 ⟨d, hd, hdo⟩ h3
    unfold utilGetNumpyArray
    rw [if_neg]
    · obtain ⟨names, hnm⟩ := inputArrayDimNames_isOk h1
      obtain ⟨hN, _, _⟩ := inputArrayDimNames_ok hs hnm
      rw [hnm, Exc.ok_bind]
      simp only
      rw [Exc.ok_bind, mapM_get_ok hN, Exc.ok_bind, if_neg]
      intro hall
      have := List.all_eq_true.1 hall d hd
      simp only [List.contains_eq_mem, decide_eq_true_eq, List.mem_flatMap] at this
      obtain ⟨e, he, hx⟩ := this
      have hes : e ≠ "*" := fun e' => h3 (e' ▸ he)
      rw [dirNames_single hwf.2 hes] at hx
      split at hx
      · simp at hx; subst hx; exact hdo he
      · cases hx
    · rintro ⟨h4, _⟩
      have : a.dims = [] := List.length_eq_zero_iff.1 (hwf.1.trans h4)
      rw [this] at hd; cases hd
  · intro h1 h2
    unfold utilGetNumpyArray
    split
    · exact ⟨_, _, rfl⟩
    · obtain ⟨names, hnm⟩ := inputArrayDimNames_isOk h1
      obtain ⟨hN, _, _⟩ := inputArrayDimNames_ok hs hnm
      rw [hnm, Exc.ok_bind]
      simp only
      rw [Exc.ok_bind, mapM_get_ok hN, Exc.ok_bind]
      have hp := dirNames_perm hn hwf.2 hs h2
      rw [if_pos]
      · obtain ⟨slices, final, t, v, r, e1, e2, e3, e4, e5⟩ := utilCore_isOk hwf hN
          (fun d _ hne => dirNames_length hwf.2 hne) hp
        rw [e1, Exc.ok_bind, e2, Exc.ok_bind, e3, Exc.ok_bind, e4, Exc.ok_bind, e5, Exc.ok_bind]
        exact ⟨_, _, rfl⟩
      · rw [List.all_eq_true]
        intro d hd
        simp only [List.contains_eq_mem, decide_eq_true_eq]
        exact hp.mem_iff.2 hd

/-- Non-vacuity of C09: transposed, an absent `x`-like axis, and a wildcard. -/
example : Exc.test (utilGetNumpyArray Demo.prof ["x", "z"] none)
    (fun r => decide (r.1.shape = [1, 3] ∧ r.1.get [0, 2] = 3)) = true := by decide +kernel
example : Exc.test (utilGetNumpyArray Demo.temp ["z", "*"] none)
    (fun r => decide (r.1.shape = [3, 4] ∧ r.1.get [2, 3] = 121 ∧ r.2 = some ["x", "y"])) = true := by
  decide +kernel
example : utilGetNumpyArray Demo.temp ["z", "x"] none = .error .dimNotInOutDims :=
  Exc.failsWith_error (by decide +kernel)

/-- **C08, general form.**  `restore_dimensions` puts the value found at the
row-major position of named coordinates back at those coordinates, for any array
of the shape `get_numpy_array` gives. -/
theorem restore_dimensions_values (a : DataArray) (hwf : a.WF) (hs : "*" ∉ a.dims)
    (outDims : List String) (hn : outDims.Nodup)
    (hd : ∀ d ∈ outDims, d ∉ ["x", "y", "z", "*"] → d ∈ a.dims)
    (hcov : ∀ d ∈ a.dims, d ∈ outDims ∨ "*" ∈ outDims)
    (arr : NDArray) (attrs : Option (Dict String))
    (hshape : arr.shape = specShape outDims (unlisted a outDims) (lenOrOne a)) :
    ∃ da, restoreDimensions arr outDims a attrs = .ok da ∧ da.dims = a.dims ∧
      da.arr.shape = a.arr.shape ∧ da.attrs = attrs.getD [] ∧
      ∀ ix : String → Nat, a.InBounds ix → (∀ d ∈ outDims, d ∉ a.dims → d ≠ "*" → ix d = 0) →
        da.at' ix = arr.get (specIndex outDims (unlisted a outDims) (lenOrOne a) ix) := by
  obtain ⟨names, hnm⟩ := inputArrayDimNames_isOk hd
  obtain ⟨hN, _, _⟩ := inputArrayDimNames_ok hs hnm
  have hp := dirNames_perm hn hwf.2 hs hcov
  have hod : originalDims outDims names = outDims.flatMap (dirNames a.dims outDims) := by
    unfold originalDims
    rw [List.flatMap_def, List.flatMap_def]
    congr 1
    apply List.map_congr_left
    intro d hd'
    rw [hN d hd']; rfl
  have hsh' : arr.shape = outDims.map (fun d => size ((dirNames a.dims outDims d).map a.len)) := by
    rw [hshape]
    unfold specShape
    apply List.map_congr_left
    intro d hdm
    by_cases hds : d = "*"
    · subst hds
      simp only [if_true, dirNames]
      congr 1
      apply List.map_congr_left
      intro x hx
      simp only [lenOrOne, unlisted] at hx ⊢
      rw [if_pos (List.mem_filter.1 hx).1]
    · rw [if_neg hds, dirNames_single hwf.2 hds]
      unfold lenOrOne
      split <;> simp
  have hsz : size arr.shape = size ((outDims.flatMap (dirNames a.dims outDims)).map a.len) := by
    rw [hsh', size_flatMap]
  obtain ⟨v, hv⟩ := NDArray.reshape_isOk (a := arr)
    (s := (outDims.flatMap (dirNames a.dims outDims)).map a.len) hsz.symm
  obtain ⟨_, v2, v3⟩ := NDArray.reshape_ok hv
  let d0 : DataArray := ⟨outDims.flatMap (dirNames a.dims outDims), v, []⟩
  have hmk : DataArray.mk' v (outDims.flatMap (dirNames a.dims outDims)) [] = .ok d0 := by
    unfold DataArray.mk'; rw [if_pos (by rw [v2]; simp)]
  have hwf0 : d0.WF := ⟨by simp [d0, v2], hp.nodup_iff.2 hwf.2⟩
  have hlen0 : ∀ d ∈ a.dims, d0.len d = a.len d := by
    intro d hdm
    show DataArray.named _ v.shape d = _
    rw [v2]
    exact DataArray.named_map (hp.mem_iff.2 hdm)
  obtain ⟨t, ht⟩ := transposeDims_isOk hwf0 (order := a.dims) hp.symm
  obtain ⟨t1, t2, t3, t4, t5, t6, t7⟩ := transposeDims_ok hwf0 ht (fun he => by
    show outDims.flatMap _ = []
    rw [he] at hp ⊢; exact List.perm_nil.1 hp)
  refine ⟨match attrs with | some at' => { t with attrs := at' } | none => t, ?_, ?_, ?_, ?_, ?_⟩
  · unfold restoreDimensions
    rw [hnm, Exc.ok_bind]
    simp only [hod]
    rw [if_neg (by rw [hsz]; simp), hv, Exc.ok_bind, hmk, Exc.ok_bind, ht, Exc.ok_bind]
    cases attrs <;> rfl
  · cases attrs <;> exact t2
  · have : t.arr.shape = a.arr.shape := by
      rw [t4, DataArray.shape_eq_map_len hwf]
      exact List.map_congr_left hlen0
    cases attrs <;> exact this
  · cases attrs with
    | none => show t.attrs = _; rw [t3]; rfl
    | some x => rfl
  · intro ix hix h0
    have hb := (DataArray.inBounds_iff hwf ix).1 hix
    have hval : d0.at' ix = arr.get (specIndex outDims (unlisted a outDims) (lenOrOne a) ix) := by
      show v.get _ = _
      have hidx : specIndex outDims (unlisted a outDims) (lenOrOne a) ix =
          outDims.map fun d => ravel ((dirNames a.dims outDims d).map a.len)
            ((dirNames a.dims outDims d).map ix) := by
        unfold specIndex
        apply List.map_congr_left
        intro d hdm
        by_cases hds : d = "*"
        · subst hds
          simp only [if_true, dirNames, unlisted]
          congr 1
          apply List.map_congr_left
          intro x hx
          unfold lenOrOne
          rw [if_pos (List.mem_filter.1 hx).1]
        · rw [if_neg hds, dirNames_single hwf.2 hds]
          split
          · simp [ravel]
          · rename_i hm
            rw [h0 d hdm hm hds]; rfl
      apply v3
      · rw [inB_map]; intro d hdm; exact hb d (hp.mem_iff.1 hdm)
      · rw [hidx, hsh', inB_map]
        intro d hdm
        apply ravel_lt
        rw [inB_map]
        intro x hx
        exact hb x (hp.mem_iff.1 (List.mem_flatMap.2 ⟨d, hdm, hx⟩))
      · rw [hidx, hsh', ravel_flatMap]
    rw [← hval, ← t5 ix]
    cases attrs <;> rfl

/-- **C08.**  `restore_dimensions(get_numpy_array(a, out_dims), out_dims, a)` is
`a`: same dims, same shape, same value at every coordinate, for every `out_dims`
(without repeats) for which `get_numpy_array` succeeds. -/
theorem get_numpy_array_restore_roundtrip (a : DataArray) (hwf : a.WF) (hs : "*" ∉ a.dims)
    (outDims : List String) (hn : outDims.Nodup) (r : NDArray) (m : Option (List String))
    (h : utilGetNumpyArray a outDims none = .ok (r, m)) (attrs : Option (Dict String)) :
    ∃ da, restoreDimensions r outDims a attrs = .ok da ∧ da.dims = a.dims ∧ da.arr.Eqv a.arr := by
  obtain ⟨e1, e2, _⟩ := get_numpy_array_errors a hwf hs outDims hn
  have hd : ∀ d ∈ outDims, d ∉ ["x", "y", "z", "*"] → d ∈ a.dims := by
    intro d hdm hne
    by_contra hc
    rw [e1 ⟨d, hdm, hne, hc⟩] at h; cases h
  have hcov : ∀ d ∈ a.dims, d ∈ outDims ∨ "*" ∈ outDims := by
    intro d hdm
    by_contra hc
    rw [not_or] at hc
    rw [e2 hd ⟨d, hdm, hc.1⟩ hc.2] at h; cases h
  obtain ⟨l1, l2⟩ := get_numpy_array_layout a hwf hs outDims r m h
  obtain ⟨da, r1, r2, r3, _, r5⟩ := restore_dimensions_values a hwf hs outDims hn hd hcov r attrs l1
  refine ⟨da, r1, r2, r3, ?_⟩
  intro idx hidx
  rw [r3] at hidx
  -- the named coordinates of this index
  let ix : String → Nat := fun d => if d ∈ a.dims then DataArray.named a.dims idx d else 0
  have hmap : a.dims.map ix = idx := by
    apply List.ext_getElem
    · rw [List.length_map, hwf.1, ← hidx.length]
    · intro i h1 h2
      simp only [List.length_map] at h1
      simp only [List.getElem_map, ix, List.getElem_mem, if_true, DataArray.named]
      rw [List.Nodup.idxOf_getElem hwf.2, List.getD_eq_getElem?_getD, List.getElem?_eq_getElem h2]; rfl
  have hib : a.InBounds ix := by unfold DataArray.InBounds; rw [hmap]; exact hidx
  have h0 : ∀ d ∈ outDims, d ∉ a.dims → d ≠ "*" → ix d = 0 := by
    intro d _ hm _; simp [ix, hm]
  have := (r5 ix hib h0).trans (l2 ix hib h0)
  unfold DataArray.at' at this
  rwa [r2, hmap] at this

/-- Non-vacuity of C08. -/
example : Exc.test (utilGetNumpyArray Demo.temp ["y", "*"] none >>= fun r =>
    restoreDimensions r.1 ["y", "*"] Demo.temp none)
    (fun d => decide (d.dims = ["x", "z", "y"] ∧ d.arr.get [1, 2, 0] = 120)) = true := by
  decide +kernel

/-! ## C55 -/

/-- Some component gives an alias for the quantity in this kind of properties. -/
def GivesAlias (sel : HasProps → Option PropDict) (args : List HasProps) (name al : String) : Prop :=
  ∃ c ∈ args, ∃ p, sel c = some p ∧ ∃ q, (name, q) ∈ p ∧ q.aliasName = some al

/-- No component gives an alias for the quantity in this kind of properties. -/
def NoAlias (sel : HasProps → Option PropDict) (args : List HasProps) (name : String) : Prop :=
  ∀ al, ¬ GivesAlias sel args name al

theorem collectAliases_get? (p : PropDict) (out : Dict String) (name : String) :
    (∃ q al, (name, q) ∈ p ∧ q.aliasName = some al ∧ (collectAliases p out).get? name = some al) ∨
    ((∀ q, (name, q) ∈ p → q.aliasName = none) ∧ (collectAliases p out).get? name = out.get? name) := by
  induction p generalizing out with
  | nil => right; exact ⟨by simp, rfl⟩
  | cons kv p ih =>
    obtain ⟨k, q⟩ := kv
    simp only [collectAliases]
    cases hq : q.aliasName with
    | none =>
      simp only
      rcases ih out with ⟨q', al, h1, h2, h3⟩ | ⟨h1, h2⟩
      · left; exact ⟨q', al, List.mem_cons_of_mem _ h1, h2, h3⟩
      · right
        refine ⟨?_, h2⟩
        intro q' hq'
        rcases List.mem_cons.1 hq' with h | h
        · cases h; exact hq
        · exact h1 q' h
    | some al =>
      simp only
      rcases ih (out.set k al) with ⟨q', al', h1, h2, h3⟩ | ⟨h1, h2⟩
      · left; exact ⟨q', al', List.mem_cons_of_mem _ h1, h2, h3⟩
      · by_cases hk : k = name
        · subst hk
          left
          exact ⟨q, al, List.mem_cons_self, hq, by rw [h2, Dict.get?_set_self]⟩
        · right
          refine ⟨?_, by rw [h2, Dict.get?_set_ne _ _ hk]⟩
          intro q' hq'
          rcases List.mem_cons.1 hq' with h | h
          · cases h; exact absurd rfl hk
          · exact h1 q' h

theorem aliasesOfType_get? (sel : HasProps → Option PropDict) (args : List HasProps)
    (out : Dict String) (name : String) :
    (∃ al, GivesAlias sel args name al ∧ (aliasesOfType sel args out).get? name = some al) ∨
    (NoAlias sel args name ∧ (aliasesOfType sel args out).get? name = out.get? name) := by
  induction args generalizing out with
  | nil => right; exact ⟨fun al ⟨c, hc, _⟩ => (by cases hc), rfl⟩
  | cons c args ih =>
    simp only [aliasesOfType]
    cases hs : sel c with
    | none =>
      simp only
      rcases ih out with ⟨al, ⟨c', hc', h1⟩, h2⟩ | ⟨h1, h2⟩
      · left; exact ⟨al, ⟨c', List.mem_cons_of_mem _ hc', h1⟩, h2⟩
      · right
        refine ⟨?_, h2⟩
        rintro al ⟨c', hc', p, hp, h3⟩
        rcases List.mem_cons.1 hc' with rfl | h
        · rw [hs] at hp; cases hp
        · exact h1 al ⟨c', h, p, hp, h3⟩
    | some p =>
      simp only
      rcases ih (collectAliases p out) with ⟨al, ⟨c', hc', h1⟩, h2⟩ | ⟨h1, h2⟩
      · left; exact ⟨al, ⟨c', List.mem_cons_of_mem _ hc', h1⟩, h2⟩
      · rcases collectAliases_get? p out name with ⟨q, al, g1, g2, g3⟩ | ⟨g1, g2⟩
        · left; exact ⟨al, ⟨c, List.mem_cons_self, p, hs, q, g1, g2⟩, by rw [h2, g3]⟩
        · right
          refine ⟨?_, by rw [h2, g2]⟩
          rintro al ⟨c', hc', p', hp, q, hq, hal⟩
          rcases List.mem_cons.1 hc' with rfl | h
          · rw [hs] at hp; cases hp
            rw [g1 q hq] at hal; cases hal
          · exact h1 al ⟨c', h, p', hp, q, hq, hal⟩

/-- **C55.**  The alias returned for a quantity is one given in input properties
if any component gives one there, else in output, else in diagnostic, else in
tendency properties; a quantity without alias anywhere is absent. -/
theorem component_aliases_priority (args : List HasProps) (name : String) :
    (∃ al, GivesAlias (·.input) args name al ∧ (getComponentAliases args).get? name = some al) ∨
    (NoAlias (·.input) args name ∧
      ((∃ al, GivesAlias (·.output) args name al ∧ (getComponentAliases args).get? name = some al) ∨
      (NoAlias (·.output) args name ∧
        ((∃ al, GivesAlias (·.diagnostic) args name al ∧
            (getComponentAliases args).get? name = some al) ∨
        (NoAlias (·.diagnostic) args name ∧
          ((∃ al, GivesAlias (·.tendency) args name al ∧
              (getComponentAliases args).get? name = some al) ∨
          (NoAlias (·.tendency) args name ∧ (getComponentAliases args).get? name = none))))))) := by
  unfold getComponentAliases
  rcases aliasesOfType_get? (·.input) args _ name with h | ⟨h1, h2⟩
  · exact Or.inl h
  · refine Or.inr ⟨h1, ?_⟩
    rw [h2]
    rcases aliasesOfType_get? (·.output) args _ name with h | ⟨h1, h2⟩
    · exact Or.inl h
    · refine Or.inr ⟨h1, ?_⟩
      rw [h2]
      rcases aliasesOfType_get? (·.diagnostic) args _ name with h | ⟨h1, h2⟩
      · exact Or.inl h
      · refine Or.inr ⟨h1, ?_⟩
        rw [h2]
        rcases aliasesOfType_get? (·.tendency) args [] name with h | ⟨h1, h2⟩
        · exact Or.inl h
        · exact Or.inr ⟨h1, h2⟩

/-- Non-vacuity of C55: input beats output and diagnostics. -/
example : (getComponentAliases
    [{ input := some [("T", { aliasName := some "t_in" })] },
     { output := some [("T", { aliasName := some "t_out" }), ("q", { aliasName := some "q_out" })] },
     { diagnostic := some [("q", { aliasName := some "q_diag" })] }])
    = [("q", "q_out"), ("T", "t_in")] := by decide +kernel

end Verif

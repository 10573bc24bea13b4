import Verif.Lemmas.Wildcard
/-! # Lemmas about restoring DataArrays -/

namespace Verif

theorem learnOutLens_mono {zs : List (String × Nat)} {lens : Dict Nat} :
    (∀ d m, lens.get? d = some m → (learnOutLens zs lens).get? d = some m) ∧
    (∀ d m, (learnOutLens zs lens).get? d = some m → lens.get? d = some m ∨ ((d, m) ∈ zs ∧ d ≠ "*")) ∧
    (∀ d, d ∈ zs.map (·.1) → d ≠ "*" → ∃ m, (learnOutLens zs lens).get? d = some m) := by
  induction zs generalizing lens with
  | nil => exact ⟨fun _ _ h => h, fun _ _ h => Or.inl h, by simp⟩
  | cons dn zs ih =>
    obtain ⟨d, n⟩ := dn
    unfold learnOutLens
    split
    · rename_i hc
      obtain ⟨i1, i2, i3⟩ := ih (lens := lens.set d n)
      refine ⟨?_, ?_, ?_⟩
      · intro e m he
        apply i1
        rw [Dict.get?_set_ne]
        · exact he
        · intro eq; subst eq
          exact hc.1 (Dict.mem_keys_of_get? he)
      · intro e m he
        rcases i2 e m he with h | h
        · rw [Dict.get?_set] at h
          split at h
          · rename_i eq; subst eq; cases h; exact Or.inr ⟨by simp, hc.2⟩
          · exact Or.inl h
        · exact Or.inr ⟨List.mem_cons_of_mem _ h.1, h.2⟩
      · intro e he hs
        simp only [List.map_cons, List.mem_cons] at he
        rcases he with rfl | he
        · exact ⟨n, i1 _ _ (Dict.get?_set_self _ _ _)⟩
        · exact i3 e he hs
    · rename_i hc
      obtain ⟨i1, i2, i3⟩ := ih (lens := lens)
      refine ⟨i1, ?_, ?_⟩
      · intro e m he
        rcases i2 e m he with h | h
        · exact Or.inl h
        · exact Or.inr ⟨List.mem_cons_of_mem _ h.1, h.2⟩
      · intro e he hs
        simp only [List.map_cons, List.mem_cons] at he
        rcases he with rfl | he
        · have : e ∈ lens.keys := by
            by_contra h; exact hc ⟨h, hs⟩
          obtain ⟨m, hm⟩ := Dict.get?_of_mem_keys this
          exact ⟨m, i1 _ _ hm⟩
        · exact i3 e he hs

/-- The dims list with its (first) wildcard replaced by `w`. -/
def filled (dims w : List String) : List String :=
  dims.take (dims.idxOf "*") ++ w ++ dims.drop (dims.idxOf "*" + 1)

theorem filled_eq_spec {dims w : List String} (hs : "*" ∈ dims) (hc : dims.count "*" ≤ 1) :
    filled dims w = outDimsSpec dims w := by
  obtain ⟨h1, h2⟩ := split_at_idxOf hs
  have h3 : "*" ∉ dims.drop (dims.idxOf "*" + 1) := by
    have := hc
    rw [h1, List.count_append, List.count_cons_self] at this
    exact List.count_eq_zero.1 (by omega)
  have key : ∀ l : List String, "*" ∉ l → (l.flatMap fun d => if d = "*" then w else [d]) = l := by
    intro l hl
    induction l with
    | nil => rfl
    | cons x l ih =>
      simp only [List.mem_cons, not_or] at hl
      rw [List.flatMap_cons, if_neg (fun e => hl.1 e.symm), ih hl.2]; rfl
  unfold outDimsSpec filled
  conv_rhs => rw [h1]
  rw [List.flatMap_append, List.flatMap_cons, if_pos rfl, key _ h2, key _ h3]
  simp

theorem outDimsSpec_no_star {dims w : List String} (hs : "*" ∉ dims) : outDimsSpec dims w = dims := by
  unfold outDimsSpec
  induction dims with
  | nil => rfl
  | cons x l ih =>
    simp only [List.mem_cons, not_or] at hs
    rw [List.flatMap_cons, if_neg (fun e => hs.1 e.symm), ih hs.2]; rfl

theorem fillDims_ok {dims w : List String} {lens : Dict Nat} {ds : List String × List Nat}
    (h : fillDims dims lens w = .ok ds) :
    ds.1 = filled dims w ∧ ds.2 = (filled dims w).map (lenOr1 lens) ∧
    ∀ d ∈ filled dims w, ∃ m, lens.get? d = some m := by
  unfold fillDims at h
  obtain ⟨shape, hs, h⟩ := Exc.bind_ok_iff.1 h
  cases h
  refine ⟨rfl, ?_, ?_⟩
  · apply mapM_ok_map _ hs
    intro x _ v hv
    rw [Dict.get_eq_ok] at hv
    simp [lenOr1, hv]
  · intro d hd
    obtain ⟨v, hv⟩ := mapM_ok_mem hs d hd
    exact ⟨v, Dict.get_eq_ok.1 hv⟩

theorem fillDims_isOk {dims w : List String} {lens : Dict Nat}
    (h : ∀ d ∈ filled dims w, ∃ m, lens.get? d = some m) :
    fillDims dims lens w = .ok (filled dims w, (filled dims w).map (lenOr1 lens)) := by
  unfold fillDims
  dsimp only
  rw [mapM_isOk (g := lenOr1 lens)]
  · rfl
  · intro d hd
    obtain ⟨m, hm⟩ := h d hd
    simp [Dict.get, lenOr1, hm]

theorem checkArrayShape_ok {dims : List String} {shape : List Nat} {lens : Dict Nat} {u : Unit} :
    checkArrayShape dims shape lens = .ok u ↔ dims.length = shape.length ∧
      ∀ d n, (d, n) ∈ dims.zip shape → ∀ m, lens.get? d = some m → m = n := by
  unfold checkArrayShape
  by_cases h1 : dims.length = shape.length
  · simp only [h1, ne_eq, not_true_eq_false, if_false, true_and]
    split
    · rename_i h2
      simp only [true_iff]
      intro d n hd m hm; exact h2 (d, n) hd m hm
    · rename_i h2
      simp only [reduceCtorEq, false_iff]
      intro h; apply h2
      rintro ⟨d, n⟩ hd m hm; exact h d n hd m hm
  · simp [h1]

/-- What a successful iteration of the restore loop produced. -/
structure Restored (raw : Dict NDArray) (outProps inProps : PropDict)
    (wild : Option (List String)) (lens : Dict Nat) (name : String) (dims : List String)
    (da : DataArray) (lens' : Dict Nat) : Prop where
  exists_raw : ∃ a units, raw.get? (getAliasOrName name outProps inProps) = some a ∧
    (outProps.get? name).bind (·.units) = some units ∧ da.attrs = [("units", units)] ∧
    (("*" ∉ dims ∧ da.dims = dims ∧ da.arr = a ∧ lens' = lens ∧
        ∀ d n, (d, n) ∈ dims.zip a.shape → ∀ m, lens.get? d = some m → m = n) ∨
     ("*" ∈ dims ∧ lens' = learnOutLens (dims.zip a.shape) lens ∧
        ∃ w, wild = some w ∧ da.dims = filled dims w ∧
          (∀ d ∈ filled dims w, ∃ m, lens'.get? d = some m) ∧
          a.reshape ((filled dims w).map (lenOr1 lens')) = .ok da.arr))
  rank : da.dims.length = da.arr.shape.length

theorem restoreOne_ok {raw : Dict NDArray} {outProps inProps : PropDict}
    {wild : Option (List String)} {lens : Dict Nat} {name : String} {dims : List String}
    {r : DataArray × Dict Nat}
    (h : restoreOne raw outProps inProps wild lens name dims = .ok r) :
    Restored raw outProps inProps wild lens name dims r.1 r.2 := by
  unfold restoreOne at h
  obtain ⟨a, ha, h1⟩ := Exc.bind_ok_iff.1 h
  obtain ⟨x, hx, h2⟩ := Exc.bind_ok_iff.1 h1
  rw [Dict.get_eq_ok] at ha
  cases hu : (outProps.get? name).bind (·.units) with
  | none => rw [hu] at h2; cases h2
  | some units =>
    rw [hu] at h2
    obtain ⟨da, hda, h3⟩ := Exc.bind_ok_iff.1 h2
    cases h3
    unfold DataArray.mk' at hda
    split at hda
    · rename_i hrank
      cases hda
      refine ⟨⟨a, units, ha, hu, rfl, ?_⟩, hrank⟩
      split at hx
      · rename_i hs
        right
        cases hw : wild with
        | none =>
          rw [hw] at hx
          obtain ⟨_, _, hx⟩ := Exc.bind_ok_iff.1 hx
          cases hx
        | some w =>
          rw [hw] at hx
          obtain ⟨ds, hds, hx1⟩ := Exc.bind_ok_iff.1 hx
          obtain ⟨f1, f2, f3⟩ := fillDims_ok hds
          cases hr : a.reshape ds.2 with
          | error e => rw [hr] at hx1; cases hx1
          | ok arr =>
            rw [hr] at hx1
            cases hx1
            refine ⟨hs, rfl, w, rfl, f1, f3, ?_⟩
            rw [← f2]; exact hr
      · rename_i hs
        left
        obtain ⟨u, hc, hx1⟩ := Exc.bind_ok_iff.1 hx
        cases hx1
        exact ⟨hs, rfl, rfl, rfl, (checkArrayShape_ok.1 hc).2⟩
    · cases hda

theorem Restored.mono {raw : Dict NDArray} {outProps inProps : PropDict}
    {wild : Option (List String)} {lens lens' : Dict Nat} {name : String} {dims : List String}
    {da : DataArray} (h : Restored raw outProps inProps wild lens name dims da lens') :
    ∀ d m, lens.get? d = some m → lens'.get? d = some m := by
  obtain ⟨a, units, _, _, _, h | h⟩ := h.exists_raw
  · rw [h.2.2.2.1]; exact fun _ _ h => h
  · rw [h.2.1]; exact learnOutLens_mono.1

/-- Lengths along dims of the input state are those of the input state. -/
theorem Restored.lengths {raw : Dict NDArray} {outProps inProps : PropDict}
    {wild : Option (List String)} {lens lens' : Dict Nat} {name : String} {dims : List String}
    {da : DataArray} (h : Restored raw outProps inProps wild lens name dims da lens') :
    ∀ d n, (d, n) ∈ da.dims.zip da.arr.shape → ∀ m, lens.get? d = some m → n = m := by
  intro d n hd m hm
  have hmono := h.mono
  obtain ⟨a, units, _, _, _, h' | h'⟩ := h.exists_raw
  · obtain ⟨h1, h2, h3, h4, h5⟩ := h'
    rw [h2, h3] at hd
    exact (h5 d n hd m hm).symm
  · obtain ⟨h1, h2, w, h3, h4, h5, h6⟩ := h'
    obtain ⟨r1, r2, r3⟩ := NDArray.reshape_ok h6
    rw [h4, r2] at hd
    obtain ⟨_, e⟩ := mem_zip_map hd
    rw [e, lenOr1, hmono d m hm]; rfl

/-- Values: a raw array of the specified shape is read back by name. -/
theorem Restored.values {raw : Dict NDArray} {outProps inProps : PropDict}
    {wild : Option (List String)} {lens lens' : Dict Nat} {name : String} {dims : List String}
    {da : DataArray} (h : Restored raw outProps inProps wild lens name dims da lens')
    {a : NDArray} (ha : raw.get? (getAliasOrName name outProps inProps) = some a)
    {w : List String} (hw : "*" ∈ dims → wild = some w) (hone : dims.count "*" ≤ 1)
    {L : String → Nat}
    (hL : ∀ d, d ∈ dims → d ≠ "*" → ∀ m, lens'.get? d = some m → L d = m)
    (hLw : "*" ∈ dims → ∀ d ∈ w, ∀ m, lens'.get? d = some m → L d = m)
    (hshape : a.shape = specShape dims w L)
    (ix : String → Nat) (hix : ∀ d ∈ dims, d ≠ "*" → ix d < L d)
    (hixw : "*" ∈ dims → ∀ d ∈ w, ix d < L d) :
    da.at' ix = a.get (specIndex dims w L ix) := by
  obtain ⟨a', units, ha', _, _, h' | h'⟩ := h.exists_raw
  · rw [ha] at ha'; cases ha'
    obtain ⟨h1, h2, h3, h4, h5⟩ := h'
    unfold DataArray.at'
    rw [h2, h3]
    congr 1
    unfold specIndex
    apply List.map_congr_left
    intro d hd; rw [if_neg]; rintro rfl; exact h1 hd
  · rw [ha] at ha'; cases ha'
    obtain ⟨h1, h2, w', h3, h4, h5, h6⟩ := h'
    have hww : w = w' := by have := hw h1; rw [h3] at this; injection this with this; exact this.symm
    subst hww
    obtain ⟨r1, r2, r3⟩ := NDArray.reshape_ok h6
    obtain ⟨hsplit, hpre⟩ := split_at_idxOf h1
    have hpost : "*" ∉ dims.drop (dims.idxOf "*" + 1) := by
      have := hone
      rw [hsplit, List.count_append, List.count_cons_self] at this
      exact List.count_eq_zero.1 (by omega)
    have hLf : ∀ d ∈ filled dims w, lenOr1 lens' d = L d := by
      intro d hd
      obtain ⟨m, hm⟩ := h5 d hd
      rw [lenOr1, hm]
      unfold filled at hd
      simp only [List.mem_append] at hd
      rcases hd with (hd | hd) | hd
      · exact (hL d (List.mem_of_mem_take hd) (fun e => hpre (e ▸ hd)) m hm).symm
      · exact (hLw h1 d hd m hm).symm
      · exact (hL d (List.mem_of_mem_drop hd) (fun e => hpost (e ▸ hd)) m hm).symm
    have hb : ∀ d ∈ filled dims w, ix d < L d := by
      intro d hd
      unfold filled at hd
      simp only [List.mem_append] at hd
      rcases hd with (hd | hd) | hd
      · exact hix d (List.mem_of_mem_take hd) (fun e => hpre (e ▸ hd))
      · exact hixw h1 d hd
      · exact hix d (List.mem_of_mem_drop hd) (fun e => hpost (e ▸ hd))
    have hmapL : (filled dims w).map (lenOr1 lens') = (filled dims w).map L :=
      List.map_congr_left hLf
    rw [hmapL] at r2 r3
    unfold DataArray.at'
    rw [h4]
    apply r3
    · rw [inB_map]; exact hb
    · rw [hshape]; unfold specIndex specShape; rw [inB_map]
      intro d hd
      by_cases hs : d = "*"
      · simp only [hs, if_true]
        apply ravel_lt; rw [inB_map]; exact hixw h1
      · simp only [hs, if_false]; exact hix d hd hs
    · rw [hshape]; unfold specIndex specShape
      rw [map_split_star h1 hone, map_split_star h1 hone, ravel_flatten (by simp) (by simp)]
      unfold filled
      rw [List.map_append, List.map_append, List.map_append, List.map_append]

/-- A raw array of the specified shape restores without error. -/
theorem restoreOne_isOk {raw : Dict NDArray} {outProps inProps : PropDict}
    {wild : Option (List String)} {lens : Dict Nat} {name : String} {dims w : List String}
    {a : NDArray} {units : String}
    (ha : raw.get? (getAliasOrName name outProps inProps) = some a)
    (hu : (outProps.get? name).bind (·.units) = some units)
    (hw : "*" ∈ dims → wild = some w) (hone : dims.count "*" ≤ 1) {L : String → Nat}
    (hL : ∀ d m, lens.get? d = some m → L d = m)
    (hwk : "*" ∈ dims → ∀ d ∈ w, ∃ m, lens.get? d = some m)
    (hshape : a.shape = specShape dims w L) :
    ∃ r, restoreOne raw outProps inProps wild lens name dims = .ok r := by
  unfold restoreOne
  dsimp only
  rw [Dict.get_eq_ok.2 ha]
  simp only [Exc.ok_bind, hu]
  by_cases hs : "*" ∈ dims
  · rw [if_pos hs, hw hs]
    dsimp only
    obtain ⟨hsplit, hpre⟩ := split_at_idxOf hs
    have hpost : "*" ∉ dims.drop (dims.idxOf "*" + 1) := by
      have := hone
      rw [hsplit, List.count_append, List.count_cons_self] at this
      exact List.count_eq_zero.1 (by omega)
    have hzip : (dims.zip a.shape).map (·.1) = dims := by
      rw [List.map_fst_zip]; rw [hshape]; simp [specShape]
    obtain ⟨l1, l2, l3⟩ := learnOutLens_mono (zs := dims.zip a.shape) (lens := lens)
    have hin : ∀ d ∈ filled dims w, d ∈ w ∨ (d ∈ dims ∧ d ≠ "*") := by
      intro d hd
      unfold filled at hd
      simp only [List.mem_append] at hd
      rcases hd with (hd | hd) | hd
      · exact Or.inr ⟨List.mem_of_mem_take hd, fun e => hpre (e ▸ hd)⟩
      · exact Or.inl hd
      · exact Or.inr ⟨List.mem_of_mem_drop hd, fun e => hpost (e ▸ hd)⟩
    have hknown : ∀ d ∈ filled dims w, ∃ m, (learnOutLens (dims.zip a.shape) lens).get? d = some m := by
      intro d hd
      rcases hin d hd with h | ⟨h, h'⟩
      · obtain ⟨m, hm⟩ := hwk hs d h; exact ⟨m, l1 _ _ hm⟩
      · exact l3 d (by rw [hzip]; exact h) h'
    rw [fillDims_isOk hknown]
    simp only [Exc.ok_bind]
    have hLf : ∀ d ∈ filled dims w, lenOr1 (learnOutLens (dims.zip a.shape) lens) d = L d := by
      intro d hd
      obtain ⟨m, hm⟩ := hknown d hd
      rw [lenOr1, hm]
      rcases l2 d m hm with h | ⟨h, _⟩
      · exact (hL d m h).symm
      · rw [hshape] at h
        obtain ⟨h1, h2⟩ := mem_zip_map (f := fun d => if d = "*" then size (w.map L) else L d) h
        rcases hin d hd with hdw | ⟨_, hne⟩
        · obtain ⟨m', hm'⟩ := hwk hs d hdw
          rw [l1 d m' hm'] at hm; cases hm
          exact (hL d _ hm').symm
        · rw [h2, if_neg hne]; rfl
    rw [List.map_congr_left hLf]
    have hsize : size ((filled dims w).map L) = size a.shape := by
      rw [hshape]; unfold specShape filled
      rw [map_split_star hs hone, List.map_append, List.map_append, size_append, size_append,
        size_append, size_append]
      simp
    obtain ⟨b, hb⟩ := NDArray.reshape_isOk hsize
    rw [hb]
    simp only [Exc.ok_bind]
    have hbs := (NDArray.reshape_ok hb).2.1
    unfold DataArray.mk'
    rw [if_pos (by rw [hbs]; simp)]
    exact ⟨_, rfl⟩
  · rw [if_neg hs]
    have hshape' : a.shape = dims.map L := by
      rw [hshape]; unfold specShape
      apply List.map_congr_left
      intro d hd; rw [if_neg]; rintro rfl; exact hs hd
    rw [(checkArrayShape_ok (u := ())).2]
    · simp only [Exc.ok_bind]
      unfold DataArray.mk'
      rw [if_pos (by rw [hshape']; simp)]
      exact ⟨_, rfl⟩
    · refine ⟨by rw [hshape']; simp, ?_⟩
      intro d n hd m hm
      rw [hshape'] at hd
      obtain ⟨_, e⟩ := mem_zip_map hd
      rw [e]; exact (hL d m hm).symm

/-- Lengths after restoring a raw array of the specified shape. -/
theorem Restored.lens_spec {raw : Dict NDArray} {outProps inProps : PropDict}
    {wild : Option (List String)} {lens lens' : Dict Nat} {name : String} {dims : List String}
    {da : DataArray} (h : Restored raw outProps inProps wild lens name dims da lens')
    {a : NDArray} (ha : raw.get? (getAliasOrName name outProps inProps) = some a)
    {w : List String} {L : String → Nat} (hL : ∀ d m, lens.get? d = some m → L d = m)
    (hshape : a.shape = specShape dims w L) : ∀ d m, lens'.get? d = some m → L d = m := by
  intro d m hm
  obtain ⟨a', units, ha', _, _, h' | h'⟩ := h.exists_raw
  · rw [h'.2.2.2.1] at hm; exact hL d m hm
  · rw [ha] at ha'; cases ha'
    rw [h'.2.1] at hm
    rcases learnOutLens_mono.2.1 d m hm with h2 | ⟨h2, hne⟩
    · exact hL d m h2
    · rw [hshape] at h2
      obtain ⟨_, e⟩ := mem_zip_map (f := fun d => if d = "*" then size (w.map L) else L d) h2
      rw [e, if_neg hne]

theorem extractOutDims_ok {inProps : PropDict} {ignore : List String} {outProps : PropDict}
    {acc r : Dict (List String)} (h : extractOutDims inProps ignore outProps acc = .ok r)
    (hn : (acc.keys ++ outProps.keys).Nodup) :
    ∃ rest, r = acc ++ rest ∧
      (∀ nd ∈ rest, nd.1 ∉ ignore ∧ ∃ p, (nd.1, p) ∈ outProps ∧ effDims inProps nd.1 p = some nd.2) ∧
      (∀ kv ∈ outProps, kv.1 ∉ ignore → ∃ d, effDims inProps kv.1 kv.2 = some d ∧ (kv.1, d) ∈ rest) ∧
      rest.keys.Sublist outProps.keys := by
  induction outProps generalizing acc with
  | nil => cases h; exact ⟨[], by simp, by simp, by simp, by simp⟩
  | cons kv outProps ih =>
    obtain ⟨name, p⟩ := kv
    have hn2 : (acc.keys ++ Dict.keys outProps).Nodup := by
      apply List.Sublist.nodup _ hn
      exact List.Sublist.append (List.Sublist.refl _) (List.sublist_cons_self _ _)
    have hname : name ∉ acc.keys := by
      rw [List.nodup_append] at hn
      intro hc
      exact hn.2.2 name hc name (by simp) rfl
    unfold extractOutDims at h
    by_cases hig : name ∈ ignore
    · rw [if_pos hig] at h
      obtain ⟨rest, h1, h2, h3, h4⟩ := ih h hn2
      refine ⟨rest, h1, ?_, ?_, ?_⟩
      · intro nd hnd
        obtain ⟨g1, p', g2, g3⟩ := h2 nd hnd
        exact ⟨g1, p', List.mem_cons_of_mem _ g2, g3⟩
      · intro kv hkv hni
        rcases List.mem_cons.1 hkv with rfl | hkv
        · exact absurd hig hni
        · exact h3 kv hkv hni
      · exact h4.cons _
    · rw [if_neg hig] at h
      have main : ∀ d, effDims inProps name p = some d →
          extractOutDims inProps ignore outProps (acc.set name d) = .ok r →
          ∃ rest, r = acc ++ rest ∧
            (∀ nd ∈ rest, nd.1 ∉ ignore ∧ ∃ q, (nd.1, q) ∈ ((name, p) :: outProps) ∧ effDims inProps nd.1 q = some nd.2) ∧
            (∀ kv ∈ ((name, p) :: outProps), kv.1 ∉ ignore → ∃ d, effDims inProps kv.1 kv.2 = some d ∧ (kv.1, d) ∈ rest) ∧
            rest.keys.Sublist (Dict.keys ((name, p) :: outProps)) := by
        intro d hd hx
        rw [Dict.set_of_not_mem hname] at hx
        have hn3 : (Dict.keys (acc ++ [(name, d)]) ++ Dict.keys outProps).Nodup := by
          simpa using hn
        obtain ⟨rest, h1, h2, h3, h4⟩ := ih hx hn3
        refine ⟨(name, d) :: rest, by rw [h1]; simp, ?_, ?_, ?_⟩
        · intro nd hnd
          rcases List.mem_cons.1 hnd with rfl | hnd
          · exact ⟨hig, p, by simp, hd⟩
          · obtain ⟨g1, p', g2, g3⟩ := h2 nd hnd
            exact ⟨g1, p', List.mem_cons_of_mem _ g2, g3⟩
        · intro kv hkv hni
          rcases List.mem_cons.1 hkv with rfl | hkv
          · exact ⟨d, hd, by simp⟩
          · obtain ⟨d', g1, g2⟩ := h3 kv hkv hni
            exact ⟨d', g1, List.mem_cons_of_mem _ g2⟩
        · exact h4.cons_cons _
      cases hp : p.dims with
      | some d =>
        rw [hp] at h
        exact main d (by simp [effDims, hp]) h
      | none =>
        rw [hp] at h
        cases hi : inProps.get? name with
        | none => rw [hi] at h; cases h
        | some ip =>
          rw [hi] at h
          cases hid : ip.dims with
          | none => simp only [hid] at h; cases h
          | some d =>
            simp only [hid] at h
            exact main d (by simp [effDims, hp, hi, hid]) h

theorem extractOutDims_isOk {inProps : PropDict} {ignore : List String} {outProps : PropDict}
    {acc : Dict (List String)}
    (h : ∀ kv ∈ outProps, kv.1 ∉ ignore → ∃ d, effDims inProps kv.1 kv.2 = some d) :
    ∃ r, extractOutDims inProps ignore outProps acc = .ok r := by
  induction outProps generalizing acc with
  | nil => exact ⟨_, rfl⟩
  | cons kv outProps ih =>
    obtain ⟨name, p⟩ := kv
    have ih' : ∀ acc, ∃ r, extractOutDims inProps ignore outProps acc = .ok r :=
      fun acc => ih (fun kv hkv => h kv (List.mem_cons_of_mem _ hkv))
    unfold extractOutDims
    by_cases hig : name ∈ ignore
    · rw [if_pos hig]; exact ih' _
    · rw [if_neg hig]
      obtain ⟨d, hd⟩ := h _ List.mem_cons_self hig
      unfold effDims at hd
      cases hp : p.dims with
      | some d => exact ih' _
      | none =>
        simp only [hp, Option.none_or] at hd
        cases hi : inProps.get? name with
        | none => rw [hi] at hd; simp at hd
        | some ip =>
          rw [hi] at hd
          simp only [Option.bind_some] at hd
          simp only [hd]
          exact ih' _

/-- Every iteration succeeded, and the dict holds its result. -/
theorem restoreLoop_ok {raw : Dict NDArray} {outProps inProps : PropDict}
    {wild : Option (List String)} {ignore : List String} {ds : Dict (List String)}
    {lens0 : Dict Nat} {out0 out : Dict DataArray}
    (h : restoreLoop raw outProps inProps wild ignore ds lens0 out0 = .ok out)
    (hn : ds.keys.Nodup) (hig : ∀ nd ∈ ds, nd.1 ∉ ignore) :
    (∀ nd ∈ ds, ∃ da lens lens', out.get? nd.1 = some da ∧
      (∀ d m, lens0.get? d = some m → lens.get? d = some m) ∧
      Restored raw outProps inProps wild lens nd.1 nd.2 da lens') ∧
    (∀ k, k ∉ ds.keys → out.get? k = out0.get? k) ∧
    (∀ k, k ∈ out.keys ↔ k ∈ out0.keys ∨ k ∈ ds.keys) := by
  induction ds generalizing lens0 out0 with
  | nil => cases h; simp
  | cons nd ds ih =>
    obtain ⟨name, d⟩ := nd
    rw [Dict.keys_cons, List.nodup_cons] at hn
    unfold restoreLoop at h
    rw [if_neg (hig _ List.mem_cons_self)] at h
    obtain ⟨r, hr, h⟩ := Exc.bind_ok_iff.1 h
    have hres := restoreOne_ok hr
    obtain ⟨i1, i2, i3⟩ := ih h hn.2 (fun nd hnd => hig nd (List.mem_cons_of_mem _ hnd))
    refine ⟨?_, ?_, ?_⟩
    · intro nd hnd
      rcases List.mem_cons.1 hnd with rfl | hnd
      · refine ⟨r.1, lens0, r.2, ?_, fun _ _ h => h, hres⟩
        rw [i2 _ hn.1]; exact Dict.get?_set_self _ _ _
      · obtain ⟨da, lens, lens', g1, g2, g3⟩ := i1 nd hnd
        exact ⟨da, lens, lens', g1, fun d m hd => g2 d m (hres.mono d m hd), g3⟩
    · intro k hk
      simp only [Dict.keys_cons, List.mem_cons, not_or] at hk
      rw [i2 k hk.2, Dict.get?_set_ne _ _ (fun e => hk.1 e.symm)]
    · intro k
      rw [i3 k, Dict.mem_keys_set]
      simp only [Dict.keys_cons, List.mem_cons]
      constructor
      · rintro ((h | h) | h) <;> simp [h]
      · rintro (h | h | h) <;> simp [h]

/-- With raw arrays of the specified shapes the whole loop succeeds. -/
theorem restoreLoop_isOk {raw : Dict NDArray} {outProps inProps : PropDict}
    {wild : Option (List String)} {w : List String} {L : String → Nat} {ignore : List String}
    {ds : Dict (List String)} {lens0 : Dict Nat} {out0 : Dict DataArray}
    (hds : ∀ nd ∈ ds, nd.1 ∉ ignore → ∃ a units,
      raw.get? (getAliasOrName nd.1 outProps inProps) = some a ∧
      (outProps.get? nd.1).bind (·.units) = some units ∧ ("*" ∈ nd.2 → wild = some w) ∧
      nd.2.count "*" ≤ 1 ∧ a.shape = specShape nd.2 w L)
    (hL : ∀ d m, lens0.get? d = some m → L d = m)
    (hwk : ∀ d ∈ w, ∃ m, lens0.get? d = some m) :
    ∃ out, restoreLoop raw outProps inProps wild ignore ds lens0 out0 = .ok out := by
  induction ds generalizing lens0 out0 with
  | nil => exact ⟨_, rfl⟩
  | cons nd ds ih =>
    obtain ⟨name, d⟩ := nd
    unfold restoreLoop
    by_cases hig : name ∈ ignore
    · rw [if_pos hig]
      exact ih (fun nd hnd => hds nd (List.mem_cons_of_mem _ hnd)) hL hwk
    · rw [if_neg hig]
      obtain ⟨a, units, h1, h2, h3, h4, h5⟩ := hds _ List.mem_cons_self hig
      obtain ⟨r, hr⟩ := restoreOne_isOk h1 h2 h3 h4 hL (fun _ => hwk) h5
      rw [hr]
      have hres := restoreOne_ok hr
      refine ih (fun nd hnd => hds nd (List.mem_cons_of_mem _ hnd))
        (hres.lens_spec h1 hL h5) ?_
      intro d hd
      obtain ⟨m, hm⟩ := hwk d hd
      exact ⟨m, hres.mono d m hm⟩

/-- Strengthening of `restoreLoop_ok` when the raw arrays have the specified
shapes: every iteration runs with lengths agreeing with `L`. -/
theorem restoreLoop_ok_spec {raw : Dict NDArray} {outProps inProps : PropDict}
    {wild : Option (List String)} {w : List String} {L : String → Nat} {ignore : List String}
    {ds : Dict (List String)} {lens0 : Dict Nat} {out0 out : Dict DataArray}
    (h : restoreLoop raw outProps inProps wild ignore ds lens0 out0 = .ok out)
    (hn : ds.keys.Nodup) (hig : ∀ nd ∈ ds, nd.1 ∉ ignore)
    (hds : ∀ nd ∈ ds, ∃ a, raw.get? (getAliasOrName nd.1 outProps inProps) = some a ∧
      a.shape = specShape nd.2 w L)
    (hL : ∀ d m, lens0.get? d = some m → L d = m) :
    ∀ nd ∈ ds, ∃ da lens lens', out.get? nd.1 = some da ∧
      (∀ d m, lens'.get? d = some m → L d = m) ∧
      Restored raw outProps inProps wild lens nd.1 nd.2 da lens' := by
  induction ds generalizing lens0 out0 with
  | nil => simp
  | cons nd ds ih =>
    obtain ⟨name, d⟩ := nd
    have hfull := restoreLoop_ok h hn hig
    rw [Dict.keys_cons, List.nodup_cons] at hn
    unfold restoreLoop at h
    rw [if_neg (hig _ List.mem_cons_self)] at h
    obtain ⟨r, hr, h⟩ := Exc.bind_ok_iff.1 h
    have hres := restoreOne_ok hr
    obtain ⟨a, h1, h5⟩ := hds _ List.mem_cons_self
    have hL' := hres.lens_spec h1 hL h5
    intro nd hnd
    rcases List.mem_cons.1 hnd with rfl | hnd
    · refine ⟨r.1, lens0, r.2, ?_, hL', hres⟩
      rw [(restoreLoop_ok h hn.2 (fun nd hnd => hig nd (List.mem_cons_of_mem _ hnd))).2.1 _ hn.1]
      exact Dict.get?_set_self _ _ _
    · exact ih h hn.2 (fun nd hnd => hig nd (List.mem_cons_of_mem _ hnd))
        (fun nd hnd => hds nd (List.mem_cons_of_mem _ hnd)) hL' nd hnd

end Verif

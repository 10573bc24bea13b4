import Verif.Lemmas.ComponentCalls
/-! # Lemmas for the tendencies a Stepper puts in its diagnostics -/

namespace Verif

theorem bcRev_self (s : List Nat) : bcRev s s = some s := by
  induction s with
  | nil => rfl
  | cons a s ih => simp [bcRev, ih]

theorem broadcastIdx_self {s i : List Nat} (h : InB i s) : NDArray.broadcastIdx s i = i := by
  induction s generalizing i with
  | nil => cases i with
    | nil => rfl
    | cons _ _ => exact h.elim
  | cons a s ih =>
    cases i with
    | nil => exact h.elim
    | cons b i =>
      obtain ⟨h1, h2⟩ := inB_cons.1 h
      unfold NDArray.broadcastIdx
      rw [ih h2]
      congr 1
      split
      · omega
      · rfl

theorem bcIdx_self {s i : List Nat} (h : InB i s) : bcIdx s i = i := by
  unfold bcIdx
  rw [h.length, Nat.sub_self, List.drop_zero, broadcastIdx_self h]

theorem zipWith_same_shape {f : Rat → Rat → Rat} {a b c : NDArray} (hs : a.shape = b.shape)
    (h : NDArray.zipWith f a b = .ok c) :
    c.shape = a.shape ∧ ∀ i, InB i a.shape → c.get i = f (a.get i) (b.get i) := by
  unfold NDArray.zipWith at h
  rw [← hs, bcRev_self] at h
  cases h
  refine ⟨by simp, fun i hi => ?_⟩
  show f (a.get (bcIdx a.shape i)) (b.get (bcIdx a.shape i)) = _
  rw [bcIdx_self hi]

theorem bcRev_comm (a b : List Nat) : bcRev a b = bcRev b a := by
  induction a generalizing b with
  | nil => cases b <;> rfl
  | cons x a ih =>
    cases b with
    | nil => rfl
    | cons y b =>
      unfold bcRev
      rw [ih b]
      by_cases h : x = y
      · subst h; rfl
      · rw [if_neg h, if_neg (Ne.symm h)]
        by_cases hx : x = 1
        · subst hx
          rw [if_pos rfl, if_neg (Ne.symm h), if_pos rfl]
        · rw [if_neg hx]
          by_cases hy : y = 1
          · rw [if_pos hy, if_pos hy]
          · rw [if_neg hy, if_neg hy, if_neg hx]

theorem size_reverse (l : List Nat) : size l.reverse = size l := by
  induction l with
  | nil => rfl
  | cons a l ih => rw [List.reverse_cons, size_append, ih]; simp [Nat.mul_comm]

theorem eq_ones_of_size {l : List Nat} (h : size l = 1) : l = List.replicate l.length 1 := by
  induction l with
  | nil => rfl
  | cons a l ih =>
    rw [size_cons] at h
    have h1 : a = 1 := Nat.eq_one_of_mul_eq_one_right h
    rw [List.length_cons, List.replicate_succ, ← ih (Nat.eq_one_of_mul_eq_one_left h), h1]

/-- Broadcasting that does not add elements only adds leading axes of length one. -/
theorem bcRev_size {a b d : List Nat} (h : bcRev a b = some d) (hd : 0 < size d) :
    0 < size a ∧ size a ≤ size d ∧ (size a = size d → ∃ k, d = a ++ List.replicate k 1) := by
  induction a generalizing b d with
  | nil =>
    unfold bcRev at h
    cases h
    exact ⟨by simp, hd, fun e => ⟨_, by simpa using eq_ones_of_size e.symm⟩⟩
  | cons x a ih =>
    cases b with
    | nil =>
      unfold bcRev at h
      cases h
      exact ⟨hd, le_refl _, fun _ => ⟨0, by simp⟩⟩
    | cons y b =>
      unfold bcRev at h
      by_cases hxy : x = y ∨ (x ≠ 1 ∧ y = 1)
      · have h' : (bcRev a b).map (x :: ·) = some d := by
          rcases hxy with e | ⟨e1, e2⟩
          · rw [if_pos e] at h; exact h
          · rw [if_neg (by omega), if_neg e1, if_pos e2] at h; exact h
        obtain ⟨d', h1, rfl⟩ := Option.map_eq_some_iff.1 h'
        rw [size_cons] at hd
        have hx : 0 < x := Nat.pos_of_mul_pos_right hd
        obtain ⟨i1, i2, i3⟩ := ih h1 (Nat.pos_of_mul_pos_left hd)
        refine ⟨Nat.mul_pos hx i1, Nat.mul_le_mul_left _ i2, fun e => ?_⟩
        obtain ⟨k, hk⟩ := i3 (Nat.eq_of_mul_eq_mul_left hx e)
        exact ⟨k, by rw [hk]; rfl⟩
      · rw [if_neg (by tauto)] at h
        by_cases hx : x = 1
        · rw [if_pos hx] at h
          obtain ⟨d', h1, rfl⟩ := Option.map_eq_some_iff.1 h
          rw [size_cons] at hd
          obtain ⟨i1, i2, _⟩ := ih h1 (Nat.pos_of_mul_pos_left hd)
          have hy : 2 ≤ y := by
            have : 0 < y := Nat.pos_of_mul_pos_right hd
            omega
          subst hx
          simp only [size_cons, Nat.one_mul]
          have : 2 * size d' ≤ y * size d' := Nat.mul_le_mul_right _ hy
          exact ⟨i1, by omega, fun e => by omega⟩
        · rw [if_neg hx, if_neg (by tauto)] at h
          cases h

theorem unravel_ones (k : Nat) {s : List Nat} {n : Nat} (h : n < size s) :
    (unravel (List.replicate k 1 ++ s) n).drop k = unravel s n := by
  induction k with
  | zero => rfl
  | succ k ih =>
    rw [List.replicate_succ, List.cons_append]
    show ((n / size (List.replicate k 1 ++ s)) :: unravel (List.replicate k 1 ++ s)
      (n % size (List.replicate k 1 ++ s))).drop (k + 1) = _
    rw [List.drop_succ_cons, size_append, size_replicate_one, Nat.one_mul, Nat.mod_eq_of_lt h, ih]

theorem bcIdx_ones (k : Nat) {s : List Nat} {n : Nat} (h : n < size s) :
    bcIdx s (unravel (List.replicate k 1 ++ s) n) = unravel s n := by
  have hl : (unravel (List.replicate k 1 ++ s) n).length = k + s.length := by
    rw [(inB_unravel (s := List.replicate k 1 ++ s) (n := n)
      (by rw [size_append, size_replicate_one, Nat.one_mul]; exact h)).length]
    simp
  unfold bcIdx
  rw [hl, Nat.add_sub_cancel, unravel_ones k h, broadcastIdx_self (inB_unravel h)]

/-- An operation on arrays of equal size whose result has that size too is elementwise,
in C order. -/
theorem zipWith_same_size {f : Rat → Rat → Rat} {a b d : NDArray} (h : NDArray.zipWith f a b = .ok d)
    (ha : size a.shape = size d.shape) (hb : size b.shape = size d.shape) {n : Nat} (hn : n < size d.shape) :
    d.get (unravel d.shape n) = f (a.get (unravel a.shape n)) (b.get (unravel b.shape n)) := by
  unfold NDArray.zipWith at h
  cases hs : bcRev a.shape.reverse b.shape.reverse with
  | none => rw [hs] at h; cases h
  | some r =>
    rw [hs] at h
    cases h
    dsimp only at ha hb hn ⊢
    rw [size_reverse] at ha hb hn
    have pos : 0 < size r := by omega
    obtain ⟨k, hk⟩ := (bcRev_size hs pos).2.2 (by rw [size_reverse]; exact ha)
    obtain ⟨k', hk'⟩ := (bcRev_size ((bcRev_comm _ _).trans hs) pos).2.2 (by rw [size_reverse]; exact hb)
    have e : r.reverse = List.replicate k 1 ++ a.shape := by rw [hk]; simp
    have e' : r.reverse = List.replicate k' 1 ++ b.shape := by rw [hk']; simp
    have l1 : bcIdx a.shape (unravel r.reverse n) = unravel a.shape n := by
      rw [e]; exact bcIdx_ones k (by omega)
    have l2 : bcIdx b.shape (unravel r.reverse n) = unravel b.shape n := by
      rw [e']; exact bcIdx_ones k' (by omega)
    rw [l1, l2]

theorem zipWith_isOk {f : Rat → Rat → Rat} {a b : NDArray} (hs : a.shape = b.shape) :
    ∃ c, NDArray.zipWith f a b = .ok c := by
  unfold NDArray.zipWith
  rw [← hs, bcRev_self]
  exact ⟨_, rfl⟩

theorem insertDifferences_ok {inst : String} {rawS rawN : Dict NDArray} {dt : Int}
    {names : List String} {diag diag' : Dict NDArray} (hn : names.Nodup)
    (h : insertDifferences inst rawS rawN dt names diag = .ok diag') :
    (∀ x ∈ names, ∃ a b d, rawN.get? x = some a ∧ rawS.get? x = some b ∧
      NDArray.zipWith (fun x y => (x - y) / seconds dt) a b = .ok d ∧
      diag'.get? (tendencyName x inst) = some d) ∧
    (∀ k, (∀ x ∈ names, k ≠ tendencyName x inst) → diag'.get? k = diag.get? k) := by
  induction names generalizing diag with
  | nil => cases h; simp
  | cons n names ih =>
    rw [List.nodup_cons] at hn
    unfold insertDifferences at h
    obtain ⟨a, ha, h⟩ := Exc.bind_ok_iff.1 h
    obtain ⟨b, hb, h⟩ := Exc.bind_ok_iff.1 h
    obtain ⟨d, hd, h⟩ := Exc.bind_ok_iff.1 h
    obtain ⟨i1, i2⟩ := ih hn.2 h
    refine ⟨?_, ?_⟩
    · intro x hx
      rcases List.mem_cons.1 hx with rfl | hx
      · refine ⟨a, b, d, Dict.get_eq_ok.1 ha, Dict.get_eq_ok.1 hb, hd, ?_⟩
        rw [i2 _ (fun y hy e => by rw [tendencyName_inj e] at hn; exact hn.1 hy), Dict.get?_set_self]
      · exact i1 x hx
    · intro k hk
      rw [i2 k (fun x hx => hk x (List.mem_cons_of_mem _ hx)), Dict.get?_set_ne _ _]
      exact fun e => hk n List.mem_cons_self e.symm

theorem mem_outDimsSpec {dims w : List String} {d : String} :
    d ∈ outDimsSpec dims w ↔ (d ∈ dims ∧ d ≠ "*") ∨ ("*" ∈ dims ∧ d ∈ w) := by
  unfold outDimsSpec
  rw [List.mem_flatMap]
  constructor
  · rintro ⟨x, hx, hd⟩
    by_cases hxs : x = "*"
    · subst hxs; simp at hd; exact Or.inr ⟨hx, hd⟩
    · simp [hxs] at hd; subst hd; exact Or.inl ⟨hx, hxs⟩
  · rintro (⟨h1, h2⟩ | ⟨h1, h2⟩)
    · exact ⟨d, h1, by simp [h2]⟩
    · exact ⟨"*", h1, by simpa using h2⟩

theorem inB_specIndex {dims w : List String} {L ix : String → Nat}
    (h : ∀ d ∈ outDimsSpec dims w, ix d < L d) : InB (specIndex dims w L ix) (specShape dims w L) := by
  unfold specIndex specShape
  rw [inB_map]
  intro d hd
  by_cases hs : d = "*"
  · simp only [hs, if_true]
    apply ravel_lt
    rw [inB_map]
    intro x hx
    exact h x (mem_outDimsSpec.2 (Or.inr ⟨hs ▸ hd, hx⟩))
  · simp only [hs, if_false]
    exact h d (mem_outDimsSpec.2 (Or.inl ⟨hd, hs⟩))

theorem specShape_cons (d : String) (dims w : List String) (L : String → Nat) :
    specShape (d :: dims) w L = (if d = "*" then size (w.map L) else L d) :: specShape dims w L := rfl

/-- Spelling out the wildcard does not move elements. -/
theorem ravel_spec {dims w : List String} {L ix : String → Nat} :
    size (specShape dims w L) = size ((outDimsSpec dims w).map L) ∧
    ravel (specShape dims w L) (specIndex dims w L ix) =
      ravel ((outDimsSpec dims w).map L) ((outDimsSpec dims w).map ix) := by
  induction dims with
  | nil => exact ⟨rfl, rfl⟩
  | cons d dims ih =>
    have e1 : outDimsSpec (d :: dims) w = (if d = "*" then w else [d]) ++ outDimsSpec dims w := rfl
    have e2 : specIndex (d :: dims) w L ix =
      (if d = "*" then ravel (w.map L) (w.map ix) else ix d) :: specIndex dims w L ix := rfl
    rw [specShape_cons, e1, e2, List.map_append, List.map_append]
    have e3 : size ((if d = "*" then w else [d]).map L) = if d = "*" then size (w.map L) else L d := by
      split <;> simp
    refine ⟨by rw [size_cons, size_append, e3, ih.1], ?_⟩
    rw [ravel_append (by simp), ravel, ih.1, ih.2]
    congr 2
    split <;> simp [ravel]

/-- One restored output whose named dims are all dims of inputs. -/
theorem restore_at {state : State} {inProps outProps : PropDict} {raw : Dict NDArray}
    {ignoreNames : List String} {out : Dict DataArray} (hwf : state.WF) (hn : outProps.keys.Nodup)
    {wl : Option (List String) × Dict Nat} (hw : getWildcard state inProps = .ok wl)
    (h : restoreDataArrays raw outProps state inProps ignoreNames false = .ok out)
    {kv : String × QProps} (hkv : kv ∈ outProps) (hi : kv.1 ∉ ignoreNames)
    {dims : List String} (hd : effDims inProps kv.1 kv.2 = some dims) (hone : dims.count "*" ≤ 1)
    (hstar : "*" ∈ dims → ∃ ikv ∈ inProps, ∃ idims, ikv.2.dims = some idims ∧ "*" ∈ idims)
    (hknown : ∀ d ∈ dims, d ≠ "*" → ∃ q ∈ requested state inProps, d ∈ q.1.dims)
    {a : NDArray} (ha : raw.get? (getAliasOrName kv.1 outProps inProps) = some a) :
    ∃ da units, out.get? kv.1 = some da ∧ kv.2.units = some units ∧ da.attrs = [("units", units)] ∧
      da.dims = outDimsSpec dims (wildSpec (requested state inProps)) ∧
      da.arr.shape = da.dims.map (lenOr1 wl.2) ∧ size a.shape = size da.arr.shape ∧
      ∀ ix : String → Nat, InB (da.dims.map ix) da.arr.shape →
        da.at' ix = a.get (unravel a.shape (ravel da.arr.shape (da.dims.map ix))) := by
  obtain ⟨inv, hwild, hnone⟩ := getWildcard_ok hwf hw
  set w := wildSpec (requested state inProps) with hwdef
  have hst : "*" ∈ dims → wl.1 = some w := by
    intro hs
    obtain ⟨ikv, m1, idims, m2, m3⟩ := hstar hs
    rcases hwild with hwild | hwild
    · exact hwild
    · exact absurd m3 (hnone.1 hwild ikv m1 idims m2)
  have hq : ∀ q ∈ requested state inProps, ∀ d ∈ q.1.dims, ∃ m, wl.2.get? d = some m := by
    intro q hq d hd
    obtain ⟨kv, hkv, q1, q2⟩ := mem_requested.1 hq
    obtain ⟨dims, units, a, i1, i2, i3, i4, i5⟩ := inv.entry kv hkv
    rw [q1] at i3; cases i3
    exact ⟨_, i4 d hd⟩
  have hwk : ∀ d ∈ w, ∃ m, wl.2.get? d = some m := by
    intro d hd
    obtain ⟨q, hq', hd1, _⟩ := mem_wildSpec.1 hd
    exact hq q hq' d hd1
  have hall : ∀ d ∈ outDimsSpec dims w, ∃ m, wl.2.get? d = some m := by
    intro d hd
    rcases mem_outDimsSpec.1 hd with ⟨h1, h2⟩ | ⟨_, h2⟩
    · obtain ⟨q, hq', h3⟩ := hknown d h1 h2
      exact hq q hq' d h3
    · exact hwk d h2
  unfold restoreDataArrays at h
  rw [hw] at h
  simp only [Exc.ok_bind, Bool.false_eq_true, if_false] at h
  obtain ⟨ds, hds, h⟩ := Exc.bind_ok_iff.1 h
  obtain ⟨rest, e1, e2, e3, e4⟩ := extractOutDims_ok hds (by simpa using hn)
  simp only [List.nil_append] at e1
  subst e1
  obtain ⟨dims', hd1, hd2⟩ := e3 kv hkv hi
  rw [hd] at hd1; cases hd1
  obtain ⟨r1, _, _⟩ := restoreLoop_ok h (e4.nodup hn) (fun nd hnd => (e2 nd hnd).1)
  obtain ⟨da, lens, lens', o1, o2, o3⟩ := r1 _ hd2
  have hlens' : ∀ d m, wl.2.get? d = some m → lens'.get? d = some m :=
    fun d m hm => o3.mono d m (o2 d m hm)
  obtain ⟨a', units, a1, a2, a3, a4⟩ := o3.exists_raw
  simp only at a1 a2
  rw [ha] at a1; cases a1
  rw [Dict.get?_of_mem hn hkv] at a2
  simp only [Option.bind_some] at a2
  have hdd : da.dims = outDimsSpec dims w := by
    rcases a4 with ⟨hs, hdd, _⟩ | ⟨hs, _, w', hw', hdd, _⟩
    · rw [hdd, outDimsSpec_no_star hs]
    · rw [hdd]
      have := hst hs
      rw [hw'] at this; injection this with this
      rw [this, filled_eq_spec hs hone]
  have hsh : da.arr.shape = da.dims.map (lenOr1 wl.2) := by
    rcases a4 with ⟨hs, hdd', harr, _⟩ | ⟨hs, hl, w', hw', hdd', hkn, hr⟩
    · have hrank := o3.rank
      apply List.ext_getElem
      · rw [List.length_map, hrank]
      · intro k k1 k2
        have k3 : k < da.dims.length := by rw [hrank]; exact k1
        obtain ⟨m, hm⟩ := hall da.dims[k] (by rw [← hdd]; exact List.getElem_mem k3)
        have hz : (da.dims[k], da.arr.shape[k]) ∈ da.dims.zip da.arr.shape :=
          List.mem_iff_getElem.2 ⟨k, by rw [List.length_zip]; omega, by rw [List.getElem_zip]⟩
        rw [o3.lengths _ _ hz m (o2 _ m hm), List.getElem_map]
        unfold lenOr1
        rw [hm]
        rfl
    · rw [(NDArray.reshape_ok hr).2.1, hdd']
      apply List.map_congr_left
      intro d hd
      obtain ⟨m, hm⟩ := hall d (by rw [← hdd, hdd']; exact hd)
      unfold lenOr1
      rw [hm, hlens' d m hm]
  refine ⟨da, units, o1, a2, a3, hdd, hsh, ?_⟩
  rcases a4 with ⟨hs, hdd', harr, _⟩ | ⟨hs, hl, w', hw', hdd', hkn, hr⟩
  · rw [harr]
    refine ⟨rfl, fun ix hix => ?_⟩
    rw [unravel_ravel hix, ← harr]
    rfl
  · obtain ⟨r1, r2, r3⟩ := NDArray.reshape_ok hr
    rw [r2]
    refine ⟨r1.symm, fun ix hix => ?_⟩
    have hlt : ravel ((filled dims w').map (lenOr1 lens')) (da.dims.map ix) < size a.shape := by
      rw [← r1]; exact ravel_lt hix
    exact r3 _ _ hix (inB_unravel hlt) (ravel_unravel hlt).symm

end Verif

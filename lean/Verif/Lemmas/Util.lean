import Verif.Lemmas.Backend
import Verif.Model.Util
/-! # Lemmas about util.py -/

namespace Verif

/-- Names of `a.dims` that a direction stands for. -/
def dirNames (dims outDims : List String) (d : String) : List String :=
  if d = "*" then dims.filter (fun x => x ∉ outDims) else dims.filter (fun x => x = d)

theorem dimNamesLoop_ok {dims l : List String} {out r : Dict (List String)}
    (h : dimNamesLoop dims l out = .ok r) :
    (∀ d ∈ l, d ≠ "*" → r.get? d = some (dims.filter (fun x => x = d)) ∧
      (d ∉ ["x", "y", "z", "*"] → d ∈ dims)) ∧
    (∀ d, d ∉ l ∨ d = "*" → r.get? d = out.get? d) ∧
    ∀ k v, (k, v) ∈ r → (k, v) ∈ out ∨ (k ∈ l ∧ k ≠ "*" ∧ v = dims.filter (fun x => x = k)) := by
  induction l generalizing out with
  | nil => cases h; exact ⟨by simp, fun _ _ => rfl, fun _ _ h => Or.inl h⟩
  | cons dir l ih =>
    simp only [dimNamesLoop] at h
    by_cases hd : dir = "*"
    · rw [if_pos hd] at h
      obtain ⟨h1, h2, h3⟩ := ih h
      refine ⟨?_, ?_, ?_⟩
      · intro d hdm hne
        rcases List.mem_cons.1 hdm with rfl | hdm
        · exact absurd hd hne
        · exact h1 d hdm hne
      · intro d hdm
        apply h2
        rcases hdm with hdm | hdm
        · left; intro hc; exact hdm (List.mem_cons_of_mem _ hc)
        · exact Or.inr hdm
      · intro k v hkv
        rcases h3 k v hkv with h | ⟨h, h'⟩
        · exact Or.inl h
        · exact Or.inr ⟨List.mem_cons_of_mem _ h, h'⟩
    · rw [if_neg hd] at h
      split at h
      · cases h
      · rename_i hne
        obtain ⟨h1, h2, h3⟩ := ih h
        have hself : ∀ d, d = dir → (d ∉ l ∨ d = "*") → r.get? d = some (dims.filter (fun x => x = d)) := by
          rintro d rfl hc
          rw [h2 d hc, Dict.get?_set_self]
        have hmem : dir ∉ ["x", "y", "z", "*"] → dir ∈ dims := by
          intro hx
          have : dims.filter (fun x => x = dir) ≠ [] := fun e => hne ⟨hx, e⟩
          obtain ⟨y, hy⟩ := List.exists_mem_of_ne_nil _ this
          simp at hy
          obtain ⟨hy1, rfl⟩ := hy
          exact hy1
        refine ⟨?_, ?_, ?_⟩
        · intro d hdm hns
          by_cases hdl : d ∈ l
          · exact h1 d hdl hns
          · have hdd : d = dir := (List.mem_cons.1 hdm).resolve_right hdl
            refine ⟨hself d hdd (Or.inl hdl), ?_⟩
            rw [hdd]; exact hmem
        · intro d hdm
          have hne' : dir ≠ d := by
            rintro rfl
            rcases hdm with hdm | hdm
            · exact hdm List.mem_cons_self
            · exact hd hdm
          rw [h2, Dict.get?_set_ne _ _ hne']
          rcases hdm with hdm | hdm
          · left; intro hc; exact hdm (List.mem_cons_of_mem _ hc)
          · exact Or.inr hdm
        · intro k v hkv
          rcases h3 k v hkv with h | ⟨h, h'⟩
          · rcases Dict.mem_set h with h | h
            · exact Or.inl h
            · cases h
              exact Or.inr ⟨List.mem_cons_self, hd, rfl⟩
          · exact Or.inr ⟨List.mem_cons_of_mem _ h, h'⟩

theorem dimNamesLoop_error {dims l : List String} {out : Dict (List String)} {e : Err}
    (h : dimNamesLoop dims l out = .error e) :
    e = .noMatchForDirection ∧ ∃ d ∈ l, d ∉ ["x", "y", "z", "*"] ∧ d ∉ dims := by
  induction l generalizing out with
  | nil => cases h
  | cons dir l ih =>
    simp only [dimNamesLoop] at h
    by_cases hd : dir = "*"
    · rw [if_pos hd] at h
      obtain ⟨h1, d, h2, h3⟩ := ih h
      exact ⟨h1, d, List.mem_cons_of_mem _ h2, h3⟩
    · rw [if_neg hd] at h
      split at h
      · rename_i hc
        cases h
        refine ⟨rfl, dir, List.mem_cons_self, hc.1, ?_⟩
        intro hm
        have : dir ∈ dims.filter (fun x => x = dir) := by simp [hm]
        rw [hc.2] at this; cases this
      · obtain ⟨h1, d, h2, h3⟩ := ih h
        exact ⟨h1, d, List.mem_cons_of_mem _ h2, h3⟩

theorem inputArrayDimNames_ok {dims outDims : List String} {r : Dict (List String)}
    (hs : "*" ∉ dims) (h : inputArrayDimNames dims outDims = .ok r) :
    (∀ d ∈ outDims, r.get? d = some (dirNames dims outDims d)) ∧
    (∀ d ∈ outDims, d ∉ ["x", "y", "z", "*"] → d ∈ dims) ∧
    ("*" ∉ outDims → r.get? "*" = none) := by
  unfold inputArrayDimNames at h
  obtain ⟨out, ho, h⟩ := Exc.bind_ok_iff.1 h
  obtain ⟨h1, h2, h3⟩ := dimNamesLoop_ok ho
  have hx : ∀ d ∈ outDims, d ∉ ["x", "y", "z", "*"] → d ∈ dims := by
    intro d hd hne
    exact (h1 d hd (fun e => hne (by simp [e]))).2 hne
  by_cases hst : "*" ∈ outDims
  · rw [if_pos hst] at h
    cases h
    refine ⟨?_, hx, fun h => absurd hst h⟩
    intro d hd
    by_cases hds : d = "*"
    · subst hds
      rw [Dict.get?_set_self]
      congr 1
      simp only [dirNames, if_true]
      apply List.filter_congr
      intro x hxm
      have hne : x ≠ "*" := fun e => hs (e ▸ hxm)
      rw [decide_eq_decide, not_iff_not, List.mem_flatMap]
      constructor
      · rintro ⟨⟨k, v⟩, hkv, hv⟩
        rcases h3 k v hkv with h | ⟨h, _, rfl⟩
        · cases h
        · simp at hv
          rw [hv.2]; exact h
      · intro hxo
        obtain ⟨g1, _⟩ := h1 x hxo hne
        exact ⟨(x, _), Dict.mem_of_get? g1, by simpa using hxm⟩
    · rw [Dict.get?_set_ne _ _ (fun e => hds e.symm), (h1 d hd hds).1]
      simp [dirNames, hds]
  · rw [if_neg hst] at h
    cases h
    refine ⟨?_, hx, fun _ => by rw [h2 "*" (Or.inr rfl)]; rfl⟩
    intro d hd
    have hds : d ≠ "*" := fun e => hst (e ▸ hd)
    rw [(h1 d hd hds).1]
    simp [dirNames, hds]

theorem inputArrayDimNames_isOk {dims outDims : List String}
    (h : ∀ d ∈ outDims, d ∉ ["x", "y", "z", "*"] → d ∈ dims) :
    ∃ r, inputArrayDimNames dims outDims = .ok r := by
  unfold inputArrayDimNames
  cases ho : dimNamesLoop dims outDims [] with
  | error e =>
    obtain ⟨_, d, h1, h2, h3⟩ := dimNamesLoop_error ho
    exact absurd (h d h1 h2) h3
  | ok out =>
    rw [Exc.ok_bind]
    split <;> exact ⟨_, rfl⟩

theorem inputArrayDimNames_error {dims outDims : List String}
    (h : ∃ d ∈ outDims, d ∉ ["x", "y", "z", "*"] ∧ d ∉ dims) :
    inputArrayDimNames dims outDims = .error .noMatchForDirection := by
  unfold inputArrayDimNames
  cases ho : dimNamesLoop dims outDims [] with
  | error e =>
    obtain ⟨rfl, _⟩ := dimNamesLoop_error ho
    rfl
  | ok out =>
    obtain ⟨h1, _, _⟩ := dimNamesLoop_ok ho
    obtain ⟨d, hd, hne, hnd⟩ := h
    exact absurd ((h1 d hd (fun e => hne (by simp [e]))).2 hne) hnd

/-- Ravelling in groups is ravelling. -/
theorem ravel_flatMap {α : Type} (l : List α) (N : α → List String) (L ix : String → Nat) :
    ravel (l.map fun d => size ((N d).map L)) (l.map fun d => ravel ((N d).map L) ((N d).map ix)) =
      ravel ((l.flatMap N).map L) ((l.flatMap N).map ix) := by
  induction l with
  | nil => rfl
  | cons d l ih =>
    rw [List.flatMap_cons, List.map_append, List.map_append, ravel_append (by simp)]
    simp only [List.map_cons, ravel, ih]
    have : size (l.map fun d => size ((N d).map L)) = size ((l.flatMap N).map L) := by
      clear ih
      induction l with
      | nil => rfl
      | cons d l ih => simp [size_append, ih]
    rw [this]

theorem size_flatMap {α : Type} (l : List α) (N : α → List String) (L : String → Nat) :
    size (l.map fun d => size ((N d).map L)) = size ((l.flatMap N).map L) := by
  induction l with
  | nil => rfl
  | cons d l ih => simp [size_append, ih]

theorem transposeDims_ok {a t : DataArray} (hwf : a.WF) {order : List String}
    (h : a.transposeDims order = .ok t) (hne : order = [] → a.dims = []) :
    order.Perm a.dims ∧ t.dims = order ∧ t.attrs = a.attrs ∧ t.arr.shape = order.map a.len ∧
    (∀ ix, t.at' ix = a.at' ix) ∧ t.WF ∧ t.len = a.len := by
  unfold DataArray.transposeDims at h
  have ho : (if order = [] then a.dims.reverse else order) = order := by
    split
    · rename_i he; rw [hne he, he]; rfl
    · rfl
  rw [ho] at h
  dsimp only at h
  split at h
  · rename_i hp
    have hp : order.Perm a.dims := List.isPerm_iff.1 hp
    obtain ⟨arr, harr, h⟩ := Exc.bind_ok_iff.1 h
    cases h
    obtain ⟨t1, t2, t3, t4, t5⟩ := NDArray.transpose_ok harr
    have hs := DataArray.shape_eq_map_len hwf
    have hsh : arr.shape = order.map a.len := by
      rw [t4, List.map_map]
      apply List.map_congr_left
      intro d hd
      show a.arr.shape.getD (a.dims.idxOf d) 0 = a.len d
      rfl
    have hnd : order.Nodup := hp.nodup_iff.2 hwf.2
    have hwft : DataArray.WF ⟨order, arr, a.attrs⟩ := ⟨by simp [hsh], hnd⟩
    refine ⟨hp, rfl, rfl, hsh, ?_, hwft, ?_⟩
    · intro ix
      unfold DataArray.at'
      rw [t5]
      congr 1
      rw [show a.arr.shape.length = a.dims.length from hwf.1.symm]
      apply map_range_getElem
      intro i hi
      have hd : a.dims[i] ∈ order := hp.mem_iff.2 (List.getElem_mem hi)
      have hidx : a.dims.idxOf a.dims[i] = i := List.Nodup.idxOf_getElem hwf.2 i hi
      have : (order.map a.dims.idxOf).idxOf i = order.idxOf a.dims[i] := by
        conv_lhs => rw [← hidx]
        apply idxOf_map_of_inj (fun d => a.dims.idxOf d) _ hd
        intro y hy e
        exact (List.idxOf_inj (hp.mem_iff.1 hy)).1 e
      rw [this]
      exact getD_map_idxOf hd ix
    · funext d
      by_cases hd : d ∈ order
      · show DataArray.named order arr.shape d = _
        rw [hsh, DataArray.named_map hd]
      · have hd' : d ∉ a.dims := fun h => hd (hp.mem_iff.2 h)
        show DataArray.named order arr.shape d = DataArray.named a.dims a.arr.shape d
        unfold DataArray.named
        rw [List.idxOf_eq_length hd, List.idxOf_eq_length hd', hsh, hwf.1]
        simp
  · cases h

theorem transposeDims_isOk {a : DataArray} (hwf : a.WF) {order : List String}
    (hp : order.Perm a.dims) : ∃ t, a.transposeDims order = .ok t := by
  unfold DataArray.transposeDims
  have ho : (if order = [] then a.dims.reverse else order) = order := by
    split
    · rename_i he; subst he
      rw [List.nil_perm] at hp
      rw [hp]; rfl
    · rfl
  rw [ho]
  dsimp only
  rw [if_pos (List.isPerm_iff.2 hp)]
  unfold NDArray.transpose
  rw [if_pos]
  · exact ⟨_, rfl⟩
  · refine ⟨by simp [hp.length_eq, hwf.1], ?_, ?_⟩
    · apply List.Nodup.map_on _ (hp.nodup_iff.2 hwf.2)
      intro x hx y hy e
      exact (List.idxOf_inj (hp.mem_iff.1 hx)).1 e
    · intro x hx
      obtain ⟨d, hd, rfl⟩ := List.mem_map.1 hx
      rw [← hwf.1]
      exact List.idxOf_lt_length_iff.2 (hp.mem_iff.1 hd)

theorem mapM_get_ok {N : String → List String} {names : Dict (List String)} {l : List String}
    (h : ∀ d ∈ l, names.get? d = some (N d)) :
    targetOrder l names = .ok (l.flatMap N) := by
  unfold targetOrder
  rw [mapM_isOk (g := N)]
  · rw [Exc.ok_bind, List.flatMap_def]
  · intro d hd; rw [Dict.get_eq_ok]; exact h d hd

end Verif

namespace Verif

/-- The part of `utilGetNumpyArray` after the names are known. -/
theorem utilCore_ok {a : DataArray} (hwf : a.WF) {outDims : List String}
    {names : Dict (List String)} {N : String → List String} {r : NDArray}
    (hN : ∀ d ∈ outDims, names.get? d = some (N d))
    (h : ∃ slices final t v, outDims.mapM (sliceShape a names) = .ok slices ∧
      outDims.mapM (finalLen a names) = .ok final ∧
      a.transposeDims (outDims.flatMap N) = .ok t ∧
      t.arr.reshape slices.flatten = .ok v ∧ v.reshape final = .ok r)
    (hall : a.dims.all (fun d => (outDims.flatMap N).contains d) = true) :
    (outDims.flatMap N).Perm a.dims ∧ r.shape = outDims.map (fun d => size ((N d).map a.len)) ∧
    ∀ ix, a.InBounds ix →
      r.get (outDims.map fun d => ravel ((N d).map a.len) ((N d).map ix)) = a.at' ix := by
  obtain ⟨slices, final, t, v, h1, h2, h3, h4, h5⟩ := h
  have hne : outDims.flatMap N = [] → a.dims = [] := by
    intro he
    rw [he] at hall
    rw [List.eq_nil_iff_forall_not_mem]
    intro x hx
    simpa using List.all_eq_true.1 hall x hx
  obtain ⟨p1, p2, p3, p4, p5, p6, p7⟩ := transposeDims_ok hwf h3 hne
  have hfin : final = outDims.map (fun d => size ((N d).map a.len)) := by
    apply mapM_ok_map _ h2
    intro d hd n hn
    unfold finalLen at hn
    rw [Dict.get_eq_ok.2 (hN d hd), Exc.ok_bind] at hn
    split at hn
    · rename_i he; cases hn; simp [he]
    · cases hn; rfl
  obtain ⟨_, r2, r3⟩ := NDArray.reshape_ok h4
  obtain ⟨_, r5, r6⟩ := NDArray.reshape_ok h5
  refine ⟨p1, by rw [r5, hfin], ?_⟩
  intro ix hix
  have hb := (DataArray.inBounds_iff hwf ix).1 hix
  have hbt : InB ((outDims.flatMap N).map ix) t.arr.shape := by
    rw [p4, inB_map]
    intro d hd; exact hb d (p1.mem_iff.1 hd)
  have hbr : InB (outDims.map fun d => ravel ((N d).map a.len) ((N d).map ix)) final := by
    rw [hfin, inB_map]
    intro d hd
    apply ravel_lt
    rw [inB_map]
    intro x hx
    exact hb x (p1.mem_iff.1 (List.mem_flatMap.2 ⟨d, hd, hx⟩))
  have hrav : ravel t.arr.shape ((outDims.flatMap N).map ix) =
      ravel final (outDims.map fun d => ravel ((N d).map a.len) ((N d).map ix)) := by
    rw [p4, hfin, ravel_flatMap]
  have hlt : ravel final (outDims.map fun d => ravel ((N d).map a.len) ((N d).map ix)) < size slices.flatten := by
    have := ravel_lt hbr
    have e1 := (NDArray.reshape_ok h5).1
    rw [r2] at e1
    omega
  rw [r6 _ (unravel slices.flatten (ravel final (outDims.map fun d => ravel ((N d).map a.len) ((N d).map ix))))
    hbr (by rw [r2]; exact inB_unravel hlt) (by rw [r2, ravel_unravel hlt])]
  rw [r3 _ ((outDims.flatMap N).map ix) (inB_unravel hlt) hbt (by rw [ravel_unravel hlt, hrav])]
  rw [← p5 ix]
  unfold DataArray.at'
  rw [p2]

theorem utilCore_isOk {a : DataArray} (hwf : a.WF) {outDims : List String}
    {names : Dict (List String)} {N : String → List String}
    (hN : ∀ d ∈ outDims, names.get? d = some (N d))
    (hlen : ∀ d ∈ outDims, d ≠ "*" → (N d).length ≤ 1)
    (hp : (outDims.flatMap N).Perm a.dims) :
    ∃ slices final t v r, outDims.mapM (sliceShape a names) = .ok slices ∧
      outDims.mapM (finalLen a names) = .ok final ∧
      a.transposeDims (outDims.flatMap N) = .ok t ∧
      t.arr.reshape slices.flatten = .ok v ∧ v.reshape final = .ok r := by
  have h1 : outDims.mapM (sliceShape a names) =
      .ok (outDims.map fun d => if N d = [] then [1] else (N d).map a.len) := by
    apply mapM_isOk
    intro d hd
    unfold sliceShape
    rw [Dict.get_eq_ok.2 (hN d hd), Exc.ok_bind]
    split
    · rfl
    · rw [if_neg]
      rintro ⟨e1, e2⟩
      exact absurd (hlen d hd e1) (by omega)
  have h2 : outDims.mapM (finalLen a names) = .ok (outDims.map fun d => size ((N d).map a.len)) := by
    apply mapM_isOk
    intro d hd
    unfold finalLen
    rw [Dict.get_eq_ok.2 (hN d hd), Exc.ok_bind]
    split
    · rename_i he; simp [he]
    · rfl
  obtain ⟨t, h3⟩ := transposeDims_isOk hwf hp
  obtain ⟨p1, p2, p3, p4, p5, p6, p7⟩ := transposeDims_ok hwf h3 (fun he => by
    rw [he, List.nil_perm] at hp; exact hp)
  have hsz : size (outDims.map fun d => if N d = [] then [1] else (N d).map a.len).flatten =
      size ((outDims.flatMap N).map a.len) := by
    clear h1 h2 h3 p4 p2 p1 hp hN hlen
    induction outDims with
    | nil => rfl
    | cons d l ih =>
      simp only [List.map_cons, List.flatten_cons, List.flatMap_cons, List.map_append, size_append, ih]
      congr 1
      split
      · rename_i he; simp [he]
      · rfl
  obtain ⟨v, h4⟩ : ∃ v, t.arr.reshape
      (outDims.map fun d => if N d = [] then [1] else (N d).map a.len).flatten = .ok v :=
    NDArray.reshape_isOk (by rw [hsz, p4])
  obtain ⟨_, r2, _⟩ := NDArray.reshape_ok h4
  obtain ⟨r, h5⟩ : ∃ r, v.reshape (outDims.map fun d => size ((N d).map a.len)) = .ok r :=
    NDArray.reshape_isOk (by rw [r2, hsz, ← size_flatMap])
  exact ⟨_, _, t, v, r, h1, h2, h3, h4, h5⟩

theorem dirNames_perm {dims outDims : List String} (hn : outDims.Nodup) (hd : dims.Nodup)
    (hs : "*" ∉ dims) (hcov : ∀ d ∈ dims, d ∈ outDims ∨ "*" ∈ outDims) :
    (outDims.flatMap (dirNames dims outDims)).Perm dims := by
  rw [List.perm_ext_iff_of_nodup _ hd]
  · intro x
    rw [List.mem_flatMap]
    constructor
    · rintro ⟨d, _, hx⟩
      unfold dirNames at hx
      split at hx <;> exact (List.mem_filter.1 hx).1
    · intro hx
      by_cases hxo : x ∈ outDims
      · refine ⟨x, hxo, ?_⟩
        have : x ≠ "*" := fun e => hs (e ▸ hx)
        simp [dirNames, this, hx]
      · exact ⟨"*", (hcov x hx).resolve_left hxo, by simp [dirNames, hx, hxo]⟩
  · rw [List.nodup_flatMap]
    refine ⟨?_, ?_⟩
    · intro d _
      unfold dirNames
      split <;> exact hd.filter _
    · apply List.Pairwise.imp_of_mem _ hn
      intro d e hdm hem hne x hx hx'
      unfold dirNames at hx hx'
      split at hx <;> split at hx'
      · rename_i h1 h2; exact hne (h1.trans h2.symm)
      · simp at hx hx'
        exact hx.2 (hx'.2 ▸ hem)
      · simp at hx hx'
        exact hx'.2 (hx.2 ▸ hdm)
      · simp at hx hx'
        exact hne (hx.2.symm.trans hx'.2)

theorem dirNames_length {dims outDims : List String} (hd : dims.Nodup) {d : String} (hne : d ≠ "*") :
    (dirNames dims outDims d).length ≤ 1 := by
  unfold dirNames
  rw [if_neg hne]
  have h1 : dims.filter (fun x => decide (x = d)) = dims.filter (fun x => x == d) := by
    apply List.filter_congr; intro x _; by_cases h : x = d <;> simp [h]
  rw [h1, ← List.count_eq_length_filter]
  exact List.nodup_iff_count_le_one.1 hd d

theorem dirNames_single {dims outDims : List String} (hd : dims.Nodup) {d : String}
    (hne : d ≠ "*") : dirNames dims outDims d = if d ∈ dims then [d] else [] := by
  unfold dirNames
  rw [if_neg hne]
  split
  · rename_i hm
    have h1 : dims.filter (fun x => decide (x = d)) = dims.filter (fun x => x == d) := by
      apply List.filter_congr; intro x _; by_cases h : x = d <;> simp [h]
    rw [h1, List.filter_beq, List.count_eq_one_of_mem hd hm]; rfl
  · rename_i hm
    rw [List.filter_eq_nil_iff]
    intro x hx
    simp only [decide_eq_true_eq]
    rintro rfl; exact hm hx

end Verif

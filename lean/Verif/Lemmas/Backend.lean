import Verif.Lemmas.Lists
import Verif.Model.Wildcard
/-! # Lemmas about `getNumpyArray`, `flattenWildcardDims`, unit conversion -/

namespace Verif

namespace DataArray

theorem named_map {dims : List String} {ix : String → Nat} {d : String} (h : d ∈ dims) :
    named dims (dims.map ix) d = ix d := getD_map_idxOf h ix

theorem shape_eq_map_len {a : DataArray} (h : a.WF) : a.arr.shape = a.dims.map a.len := by
  obtain ⟨hl, hn⟩ := h
  apply List.ext_getElem
  · simp [hl]
  · intro i h1 h2
    simp at h2
    simp only [List.getElem_map, len, named]
    rw [List.Nodup.idxOf_getElem hn]
    rw [List.getD_eq_getElem?_getD, List.getElem?_eq_getElem h1]; rfl

theorem mem_zip_len {a : DataArray} (h : a.WF) {d : String} {n : Nat} :
    (d, n) ∈ a.dims.zip a.arr.shape ↔ d ∈ a.dims ∧ n = a.len d := by
  rw [shape_eq_map_len h]
  constructor
  · exact mem_zip_map
  · rintro ⟨h1, rfl⟩; exact zip_mem_map h1

theorem inBounds_iff {a : DataArray} (h : a.WF) (ix : String → Nat) :
    a.InBounds ix ↔ ∀ d ∈ a.dims, ix d < a.len d := by
  unfold InBounds; rw [shape_eq_map_len h, inB_map]

end DataArray

theorem foldl_set_get?_of_not_mem {l : List (String × Nat)} {d : Dict Nat} {x : String}
    (h : x ∉ l.map (·.1)) :
    (l.foldl (fun d ni => d.set ni.1 ni.2) d).get? x = d.get? x := by
  induction l generalizing d with
  | nil => rfl
  | cons a l ih =>
    simp only [List.map_cons, List.mem_cons, not_or] at h
    rw [List.foldl_cons, ih h.2, Dict.get?_set_ne _ _ (fun e => h.1 e.symm)]

theorem dimToAxis_aux {l : List String} (hn : l.Nodup) (k : Nat) (d : Dict Nat) {x : String}
    (hx : x ∈ l) :
    ((l.zipIdx k).foldl (fun d ni => d.set ni.1 ni.2) d).get? x = some (l.idxOf x + k) := by
  induction l generalizing k d with
  | nil => simp at hx
  | cons a l ih =>
    rw [List.nodup_cons] at hn
    rw [List.zipIdx_cons, List.foldl_cons]
    by_cases hax : a = x
    · subst hax
      rw [foldl_set_get?_of_not_mem (by simpa using hn.1)]
      simp
    · have hx' : x ∈ l := by
        rcases List.mem_cons.1 hx with h | h
        · exact absurd h.symm hax
        · exact h
      rw [ih hn.2 (k + 1) _ hx', List.idxOf_cons_ne _ hax]
      congr 1; omega

theorem dimToAxis_get? {l : List String} (hn : l.Nodup) {x : String} (hx : x ∈ l) :
    (dimToAxis l).get? x = some (l.idxOf x) := by
  have := dimToAxis_aux hn 0 [] hx
  simpa [dimToAxis] using this

theorem broadcastIdx_map {α : Type} (l : List α) (s ix : α → Nat) :
    NDArray.broadcastIdx (l.map s) (l.map ix) = l.map (fun d => if s d = 1 then 0 else ix d) := by
  induction l with
  | nil => rfl
  | cons a l ih => simp [NDArray.broadcastIdx, ih]

theorem broadcastable_map {α : Type} (l : List α) (s t : α → Nat)
    (h : ∀ d ∈ l, s d = t d ∨ s d = 1) : NDArray.broadcastable (l.map s) (l.map t) = true := by
  induction l with
  | nil => rfl
  | cons a l ih =>
    simp only [List.map_cons, NDArray.broadcastable, Bool.and_eq_true, Bool.or_eq_true, beq_iff_eq]
    exact ⟨h a (by simp), ih (fun d hd => h d (List.mem_cons_of_mem _ hd))⟩

/-- Length of a dimension as the default backend reads it (absent dims: 1). -/
def lenOr1 (lens : Dict Nat) (d : String) : Nat := (lens.get? d).getD 1

/-- `out` has the layout `dims` (lengths `L`) and holds the values of `a`. -/
def Layout (out : NDArray) (dims : List String) (L : String → Nat)
    (val : (String → Nat) → Rat) : Prop :=
  out.shape = dims.map L ∧
  ∀ ix : String → Nat, (∀ d ∈ dims, ix d < L d) → out.get (dims.map ix) = val ix

theorem nodup_current {outDims dims : List String} (hd : dims.Nodup) (ho : outDims.Nodup) :
    ((outDims.filter (fun d => d ∉ dims)).reverse ++ dims).Nodup := by
  rw [List.nodup_append]
  refine ⟨List.nodup_reverse.2 (ho.filter _), hd, ?_⟩
  intro a ha b hb e
  subst e
  simp at ha
  exact ha.2 hb

/-- Values and dims after the length-1 axes for missing dims were put in front. -/
theorem expandMissing {a : DataArray} (hwf : a.WF) {missing : List String}
    (hm : ∀ d ∈ missing, d ∉ a.dims) {vc : NDArray × List String}
    (h : (if missing ≠ [] then
        a.arr.reshape (List.replicate missing.length 1 ++ a.arr.shape) >>= fun v =>
        (.ok (v, missing.reverse ++ a.dims) : Except Err (NDArray × List String))
      else .ok (a.arr, a.dims)) = .ok vc) :
    vc.2 = missing.reverse ++ a.dims ∧
    vc.1.shape = vc.2.map (fun d => if d ∈ a.dims then a.len d else 1) ∧
    ∀ ix : String → Nat, (∀ d ∈ missing, ix d = 0) → (∀ d ∈ a.dims, ix d < a.len d) →
      vc.1.get (vc.2.map ix) = a.at' ix := by
  have hdims : a.dims.map (fun d => if d ∈ a.dims then a.len d else 1) = a.arr.shape := by
    rw [DataArray.shape_eq_map_len hwf]
    apply List.map_congr_left
    intro d hd; simp [hd]
  split at h
  · obtain ⟨v, hv, h⟩ := Exc.bind_ok_iff.1 h
    cases h
    obtain ⟨h1, h2, h3⟩ := NDArray.reshape_ok hv
    have hmiss : ∀ f : String → Nat, ∀ c, (∀ d ∈ missing, f d = c) →
        missing.reverse.map f = List.replicate missing.length c := by
      intro f c hf
      rw [List.eq_replicate_iff]
      refine ⟨by simp, ?_⟩
      intro b hb
      simp only [List.mem_map, List.mem_reverse] at hb
      obtain ⟨d, hd, rfl⟩ := hb
      exact hf d hd
    refine ⟨rfl, ?_, ?_⟩
    · show v.shape = _
      rw [h2, List.map_append, hdims, hmiss _ 1 (fun d hd => by simp [hm d hd])]
    · intro ix hix0 hixb
      have hin : InB (a.dims.map ix) a.arr.shape := (DataArray.inBounds_iff hwf ix).2 hixb
      show v.get ((missing.reverse ++ a.dims).map ix) = _
      rw [List.map_append, hmiss ix 0 hix0]
      apply h3
      · rw [inB_append (by simp)]
        exact ⟨inB_replicate _, hin⟩
      · exact hin
      · exact ravel_replicate_one _ _ _
  · rename_i hne
    have : missing = [] := by simpa using hne
    cases h
    subst this
    exact ⟨rfl, hdims.symm, fun ix _ _ => rfl⟩

/-- Transposing to `outDims` reads the same named coordinates. -/
theorem transposeTo {values arr : NDArray} {current outDims : List String} {s : String → Nat}
    (hs : values.shape = current.map s) (hsub : ∀ d ∈ current, d ∈ outDims)
    (hnd : outDims.Nodup → current.Nodup)
    (h : (if current = outDims then .ok values
      else
        outDims.mapM (axisOf current) >>= fun axes =>
        values.transpose axes) = .ok arr) :
    arr.shape = outDims.map s ∧ ∀ ix : String → Nat, arr.get (outDims.map ix) = values.get (current.map ix) := by
  split at h
  · rename_i he
    cases h; subst he
    exact ⟨hs, fun _ => rfl⟩
  · obtain ⟨axes, hax, h⟩ := Exc.bind_ok_iff.1 h
    obtain ⟨t1, t2, t3, t4, t5⟩ := NDArray.transpose_ok h
    have haxes : axes = outDims.map (fun d => ((dimToAxis current).get? d).getD 0) := by
      apply mapM_ok_map _ hax
      intro x _ v hv
      unfold axisOf at hv
      cases hx : (dimToAxis current).get? x with
      | none => simp [hx] at hv
      | some i => simp [hx] at hv; simp [hv]
    have hond : outDims.Nodup := by
      rw [haxes] at t2; exact List.Nodup.of_map _ t2
    have hcnd := hnd hond
    have hlen : outDims.length = current.length := by
      have := t1; rw [haxes, hs] at this; simpa using this
    have hsub' : ∀ d ∈ outDims, d ∈ current := by
      have hp : current.Subperm outDims := List.subperm_of_subset hcnd hsub
      have := hp.perm_of_length_le (by omega)
      intro d hd; exact this.mem_iff.2 hd
    have haxes' : axes = outDims.map (fun d => current.idxOf d) := by
      rw [haxes]; apply List.map_congr_left
      intro d hd; rw [dimToAxis_get? hcnd (hsub' d hd)]; rfl
    refine ⟨?_, ?_⟩
    · rw [t4, haxes', List.map_map]
      apply List.map_congr_left
      intro d hd
      show values.shape.getD (current.idxOf d) 0 = s d
      rw [hs]; exact getD_map_idxOf (hsub' d hd) s
    · intro ix
      rw [t5]
      congr 1
      have hl : values.shape.length = current.length := by rw [hs]; simp
      rw [hl]
      apply map_range_getElem
      intro i hi
      have hd : current[i] ∈ outDims := hsub _ (List.getElem_mem hi)
      have hidx : current.idxOf current[i] = i := List.Nodup.idxOf_getElem hcnd i hi
      have : axes.idxOf i = outDims.idxOf current[i] := by
        rw [haxes']
        conv_lhs => rw [← hidx]
        apply idxOf_map_of_inj (fun d => current.idxOf d) _ hd
        intro y hy e
        exact (List.idxOf_inj (hsub' y hy)).1 e
      rw [this]
      exact getD_map_idxOf hd ix

theorem getNumpyArray_ok {a : DataArray} (hwf : a.WF) {outDims : List String} {lens : Dict Nat}
    {out : NDArray} (hsub : ∀ d ∈ a.dims, d ∈ outDims)
    (hlens : ∀ d ∈ a.dims, lens.get? d = some (a.len d))
    (h : getNumpyArray a outDims lens = .ok out) :
    Layout out outDims (lenOr1 lens) a.at' := by
  have hL : ∀ d ∈ a.dims, lenOr1 lens d = a.len d := fun d hd => by simp [lenOr1, hlens d hd]
  unfold getNumpyArray at h
  split at h
  · rename_i h0
    cases h
    have hd : a.dims = [] := List.eq_nil_of_length_eq_zero (hwf.1.trans h0.1)
    have ho : outDims = [] := List.eq_nil_of_length_eq_zero h0.2
    have hs : a.arr.shape = [] := List.eq_nil_of_length_eq_zero h0.1
    subst ho
    exact ⟨by simp [hs], fun ix _ => by simp [DataArray.at', hd]⟩
  split at h
  · rename_i he
    cases h
    subst he
    refine ⟨?_, fun ix _ => rfl⟩
    rw [DataArray.shape_eq_map_len hwf]
    exact List.map_congr_left (fun d hd => (hL d hd).symm)
  · obtain ⟨vc, hvc, h⟩ := Exc.bind_ok_iff.1 h
    obtain ⟨arr, harr, h⟩ := Exc.bind_ok_iff.1 h
    have hm : ∀ d ∈ outDims.filter (fun d => d ∉ a.dims), d ∉ a.dims := by
      intro d hd; simpa using (List.mem_filter.1 hd).2
    obtain ⟨c1, c2, c3⟩ := expandMissing hwf hm hvc
    have hcsub : ∀ d ∈ vc.2, d ∈ outDims := by
      intro d hd
      rw [c1] at hd
      rcases List.mem_append.1 hd with hd | hd
      · exact (List.mem_filter.1 (List.mem_reverse.1 hd)).1
      · exact hsub d hd
    have hextra : vc.2.filter (fun d => d ∉ outDims) = [] := by
      rw [List.filter_eq_nil_iff]
      intro d hd; simpa using hcsub d hd
    simp only [hextra, List.append_nil] at harr
    obtain ⟨r1, r2⟩ := transposeTo c2 hcsub
      (fun ho => by rw [c1]; exact nodup_current hwf.2 ho) harr
    have hdrop : arr.shape.drop outDims.length = [] := by
      rw [r1]; simp
    simp only [hdrop, List.append_nil] at h
    -- reading at coordinates that are 0 along length-1 axes
    have key : ∀ ix ix' : String → Nat, (∀ d ∈ outDims, ix d < lenOr1 lens d) →
        (∀ d, ix' d = if (if d ∈ a.dims then a.len d else 1) = 1 then 0 else ix d) →
        arr.get (outDims.map ix') = a.at' ix := by
      intro ix ix' hb hix'
      rw [r2 ix', c3 ix' ?_ ?_]
      · unfold DataArray.at'
        congr 1
        apply List.map_congr_left
        intro d hd
        rw [hix' d]
        simp only [hd, if_true]
        have := hb d (hsub d hd)
        rw [hL d hd] at this
        split <;> omega
      · intro d hd
        have : d ∉ a.dims := hm d hd
        rw [hix' d]; simp [this]
      · intro d hd
        rw [hix' d]
        have := hb d (hsub d hd)
        rw [hL d hd] at this
        simp only [hd, if_true]
        split <;> omega
    split at h
    · rename_i hmiss
      cases h
      have hall : ∀ d ∈ outDims, d ∈ a.dims := by
        intro d hd
        by_contra hc
        have : d ∈ outDims.filter (fun d => d ∉ a.dims) := List.mem_filter.2 ⟨hd, by simpa using hc⟩
        rw [hmiss] at this; simp at this
      refine ⟨?_, ?_⟩
      · rw [r1]; apply List.map_congr_left
        intro d hd; simp [hall d hd, hL d (hall d hd)]
      · intro ix hb
        rw [← key ix (fun d => if (if d ∈ a.dims then a.len d else 1) = 1 then 0 else ix d) hb
          (fun d => rfl)]
        congr 1
        apply List.map_congr_left
        intro d hd
        have := hb d hd
        rw [hL d (hall d hd)] at this
        simp only [hall d hd, if_true]
        split <;> omega
    · split at h
      · rename_i hshape
        cases h
        refine ⟨hshape.symm, ?_⟩
        intro ix hb
        rw [← key ix (fun d => if (if d ∈ a.dims then a.len d else 1) = 1 then 0 else ix d) hb
          (fun d => rfl)]
        congr 1
        apply List.map_congr_left
        intro d hd
        have hbd := hb d hd
        have hsd : lenOr1 lens d = (if d ∈ a.dims then a.len d else 1) := by
          rw [r1] at hshape
          exact (List.map_inj_left.1 hshape) d hd
        rw [hsd] at hbd
        by_cases h1 : (if d ∈ a.dims then a.len d else 1) = 1
        · rw [h1] at hbd; rw [if_pos h1]; omega
        · rw [if_neg h1]
      · unfold NDArray.broadcastTo at h
        split at h
        · cases h
          refine ⟨rfl, ?_⟩
          intro ix hb
          show arr.get (NDArray.broadcastIdx arr.shape (outDims.map ix)) = _
          rw [r1, broadcastIdx_map]
          exact key ix _ hb (fun d => rfl)
        · cases h

/-- Completeness: with distinct requested dims the layout is always produced. -/
theorem getNumpyArray_isOk {a : DataArray} (hwf : a.WF) {outDims : List String} {lens : Dict Nat}
    (hsub : ∀ d ∈ a.dims, d ∈ outDims) (hnd : outDims.Nodup)
    (hlens : ∀ d ∈ a.dims, lens.get? d = some (a.len d)) :
    ∃ out, getNumpyArray a outDims lens = .ok out := by
  have hL : ∀ d ∈ a.dims, lenOr1 lens d = a.len d := fun d hd => by simp [lenOr1, hlens d hd]
  unfold getNumpyArray
  split
  · exact ⟨_, rfl⟩
  split
  · exact ⟨_, rfl⟩
  have hm : ∀ d ∈ outDims.filter (fun d => d ∉ a.dims), d ∉ a.dims := by
    intro d hd; simpa using (List.mem_filter.1 hd).2
  have h1 : ∃ vc, (if outDims.filter (fun d => d ∉ a.dims) ≠ [] then
        a.arr.reshape (List.replicate (outDims.filter (fun d => d ∉ a.dims)).length 1 ++ a.arr.shape) >>= fun v =>
        (.ok (v, (outDims.filter (fun d => d ∉ a.dims)).reverse ++ a.dims) : Except Err (NDArray × List String))
      else .ok (a.arr, a.dims)) = .ok vc := by
    split
    · obtain ⟨v, hv⟩ := NDArray.reshape_isOk (a := a.arr)
        (s := List.replicate (outDims.filter (fun d => d ∉ a.dims)).length 1 ++ a.arr.shape)
        (by rw [size_append, size_replicate_one, Nat.one_mul])
      rw [hv]; exact ⟨_, rfl⟩
    · exact ⟨_, rfl⟩
  obtain ⟨vc, hvc⟩ := h1
  dsimp only
  rw [hvc]
  obtain ⟨c1, c2, c3⟩ := expandMissing hwf hm hvc
  have hcnd : vc.2.Nodup := by rw [c1]; exact nodup_current hwf.2 hnd
  have hcsub : ∀ d ∈ vc.2, d ∈ outDims := by
    intro d hd
    rw [c1] at hd
    rcases List.mem_append.1 hd with hd | hd
    · exact (List.mem_filter.1 (List.mem_reverse.1 hd)).1
    · exact hsub d hd
  have hcsup : ∀ d ∈ outDims, d ∈ vc.2 := by
    intro d hd
    rw [c1]
    by_cases h : d ∈ a.dims
    · simp [h]
    · simp [h, hd]
  have hextra : vc.2.filter (fun d => d ∉ outDims) = [] := by
    rw [List.filter_eq_nil_iff]
    intro d hd; simpa using hcsub d hd
  simp only [Exc.ok_bind, hextra, List.append_nil]
  have h2 : ∃ arr, (if vc.2 = outDims then .ok vc.1
      else
        outDims.mapM (axisOf vc.2) >>= fun axes =>
        vc.1.transpose axes) = .ok arr := by
    split
    · exact ⟨_, rfl⟩
    · rw [mapM_isOk (g := fun d => vc.2.idxOf d) (by
        intro d hd; unfold axisOf; rw [dimToAxis_get? hcnd (hcsup d hd)])]
      simp only [Exc.ok_bind]
      unfold NDArray.transpose
      have hlen : vc.1.shape.length = vc.2.length := by rw [c2]; simp
      have hperm : vc.2.Perm outDims :=
        (List.perm_ext_iff_of_nodup hcnd hnd).2 (fun d => ⟨hcsub d, hcsup d⟩)
      rw [if_pos]
      · exact ⟨_, rfl⟩
      · refine ⟨by rw [List.length_map, hlen, hperm.length_eq], ?_, ?_⟩
        · apply List.Nodup.map_on _ hnd
          intro x hx y hy e
          exact (List.idxOf_inj (hcsup x hx)).1 e
        · intro x hx
          obtain ⟨d, hd, rfl⟩ := List.mem_map.1 hx
          rw [hlen]; exact List.idxOf_lt_length_iff.2 (hcsup d hd)
  obtain ⟨arr, harr⟩ := h2
  rw [harr]
  obtain ⟨r1, r2⟩ := transposeTo c2 hcsub (fun _ => hcnd) harr
  have hdrop : arr.shape.drop outDims.length = [] := by rw [r1]; simp
  simp only [Exc.ok_bind, hdrop, List.append_nil]
  split
  · exact ⟨_, rfl⟩
  split
  · exact ⟨_, rfl⟩
  unfold NDArray.broadcastTo
  rw [if_pos]
  · exact ⟨_, rfl⟩
  · rw [r1]
    apply broadcastable_map
    intro d hd
    by_cases hda : d ∈ a.dims
    · left; simp only [hda, if_true]; exact (hL d hda).symm
    · right; simp [hda]

/-- Flattening the wildcard axes. -/
theorem flatten_ok {arr out : NDArray} {pre wild post : List String} {L : String → Nat}
    {val : (String → Nat) → Rat}
    (hl : Layout arr (pre ++ wild ++ post) L val)
    (h : flattenWildcardDims arr pre.length (pre.length + wild.length) = .ok out) :
    out.shape = pre.map L ++ [size (wild.map L)] ++ post.map L ∧
    ∀ ix : String → Nat, (∀ d ∈ pre ++ wild ++ post, ix d < L d) →
      out.get (pre.map ix ++ [ravel (wild.map L) (wild.map ix)] ++ post.map ix) = val ix := by
  obtain ⟨hs, hv⟩ := hl
  have hs' : arr.shape = pre.map L ++ wild.map L ++ post.map L := by rw [hs]; simp
  have htgt : arr.reshape (pre.map L ++ [size (wild.map L)] ++ post.map L) = .ok out := by
    unfold flattenWildcardDims at h
    rw [if_neg (by rw [hs']; simp), if_neg (by omega)] at h
    have e1 : arr.shape.take pre.length = pre.map L := by
      rw [hs', List.append_assoc, List.take_left' (by simp)]
    split at h
    · rename_i he
      have hw : wild = [] := List.eq_nil_of_length_eq_zero (by omega)
      subst hw
      have e2 : arr.shape.drop pre.length = post.map L := by
        rw [hs', List.append_assoc, List.drop_left' (by simp)]; simp
      rw [e1, e2] at h
      simpa using h
    · have e2 : arr.shape.drop (pre.length + wild.length) = post.map L := by
        rw [hs', List.drop_left' (by simp)]
      have e3 : (arr.shape.take (pre.length + wild.length)).drop pre.length = wild.map L := by
        rw [hs', List.take_left' (by simp), List.drop_left' (by simp)]
      rw [e1, e2, e3] at h
      exact h
  obtain ⟨r1, r2, r3⟩ := NDArray.reshape_ok htgt
  refine ⟨r2, ?_⟩
  intro ix hb
  rw [← hv ix hb]
  apply r3
  · rw [inB_append (by simp), inB_append (by simp), inB_map, inB_map]
    refine ⟨⟨fun d hd => hb d (by simp [hd]), ?_⟩, fun d hd => hb d (by simp [hd])⟩
    simp only [inB_cons, inB_nil, and_true]
    apply ravel_lt; rw [inB_map]; exact fun d hd => hb d (by simp [hd])
  · rw [hs, inB_map]; exact hb
  · rw [hs', ravel_flatten (by simp) (by simp), List.map_append, List.map_append]

theorem flatten_isOk {arr : NDArray} {pre wild post : List String} {L : String → Nat}
    (hs : arr.shape = (pre ++ wild ++ post).map L) :
    ∃ out, flattenWildcardDims arr pre.length (pre.length + wild.length) = .ok out := by
  have hs' : arr.shape = pre.map L ++ wild.map L ++ post.map L := by rw [hs]; simp
  unfold flattenWildcardDims
  rw [if_neg (by rw [hs']; simp), if_neg (by omega)]
  have e1 : arr.shape.take pre.length = pre.map L := by
    rw [hs', List.append_assoc, List.take_left' (by simp)]
  split
  · rename_i he
    apply NDArray.reshape_isOk
    rw [size_append, size_append]
    conv_rhs => rw [← List.take_append_drop pre.length arr.shape, size_append]
    simp
  · have e2 : arr.shape.drop (pre.length + wild.length) = post.map L := by
      rw [hs', List.drop_left' (by simp)]
    have e3 : (arr.shape.take (pre.length + wild.length)).drop pre.length = wild.map L := by
      rw [hs', List.take_left' (by simp), List.drop_left' (by simp)]
    rw [e1, e2, e3]
    apply NDArray.reshape_isOk
    rw [hs', size_append, size_append, size_append, size_append]
    simp

end Verif

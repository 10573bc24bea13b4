import Verif.Props.Ensemble
import Verif.Spec.EnsembleClasses
import Verif.Lemmas.Backend
import Verif.Lemmas.Lists
import Verif.Props.Layout
import Verif.Props.RestoreArrays
import Verif.Lemmas.StepperDiff
import Verif.Lemmas.NestedComposite
/-!
# Component classes turn means into means if their `array_call` does (C121)
-/

namespace Verif

variable {ι : Type} {w : ι → Rat}

section joint
variable {α β : Type}

theorem Joint.bind {Q : (ι → α) → α → Prop} {P : (ι → β) → β → Prop} {xs : ι → Except Err α} {y : Except Err α}
    (h : Joint Q xs y) {f : ι → α → Except Err β} {g : α → Except Err β}
    (hf : ∀ v a, Q v a → Joint P (fun i => f i (v i)) (g a)) :
    Joint P (fun i => xs i >>= f i) (y >>= g) := by
  rcases h with ⟨e, h1, h2⟩ | ⟨v, a, h1, h2, h3⟩
  · exact .inl ⟨e, fun i => by show xs i >>= f i = _; rw [h1 i]; rfl, by rw [h2]; rfl⟩
  · have h4 : (fun i => xs i >>= f i) = fun i => f i (v i) := funext fun i => by rw [h1 i]; rfl
    rw [h4, h2]
    exact hf v a h3

theorem Joint.ok {Q : (ι → α) → α → Prop} {v : ι → α} {a : α} (h : Q v a) : Joint Q (fun i => .ok (v i)) (.ok a) :=
  .inr ⟨v, a, fun _ => rfl, rfl, h⟩

/-- The same for all. -/
theorem Joint.same {Q : (ι → α) → α → Prop} {xs : ι → Except Err α} {y : Except Err α} (h : ∀ i, xs i = y)
    (hQ : ∀ a, y = .ok a → Q (fun _ => a) a) : Joint Q xs y := by
  cases y with
  | error e => exact .inl ⟨e, h, rfl⟩
  | ok a => exact .inr ⟨fun _ => a, a, h, rfl, hQ a rfl⟩

theorem Joint.mono {Q P : (ι → α) → α → Prop} {xs : ι → Except Err α} {y : Except Err α} (h : Joint Q xs y)
    (hQ : ∀ v a, Q v a → P v a) : Joint P xs y := by
  rcases h with h | ⟨v, a, h1, h2, h3⟩
  · exact .inl h
  · exact .inr ⟨v, a, h1, h2, hQ v a h3⟩

/-! ## Dictionaries -/

variable {Q : (ι → α) → α → Prop} {d : ι → Dict α} {e : Dict α}

theorem DictMean.nil : DictMean Q (fun _ : ι => ([] : Dict α)) [] := ⟨[], fun _ => rfl, .nil⟩

theorem pick_set (i : ι) (T : Dict (ι → α)) (k : String) (v : ι → α) :
    Dict.mapVal (fun u => u i) (T.set k v) = (Dict.mapVal (fun u => u i) T).set k (v i) := by
  induction T with
  | nil => rfl
  | cons a T ih =>
    obtain ⟨k', v'⟩ := a
    by_cases h : k' = k
    · subst h; simp [Dict.set, Dict.mapVal]
    · simp [Dict.set, Dict.mapVal, h] at ih ⊢
      exact ih

theorem DictMean.set (h : DictMean Q d e) (k : String) {v : ι → α} {a : α} (hv : Q v a) :
    DictMean Q (fun i => (d i).set k (v i)) (e.set k a) := by
  obtain ⟨T, h1, h2⟩ := h
  exact ⟨T.set k v, fun i => by show (d i).set k (v i) = _; rw [h1 i, pick_set], h2.set k hv⟩

theorem DictMean.keys (h : DictMean Q d e) (i : ι) : (d i).keys = e.keys := by
  obtain ⟨T, h1, h2⟩ := h
  rw [h1 i]
  clear h1
  induction h2 with
  | nil => rfl
  | @cons a b l l' hab _ ih =>
    obtain ⟨k, v⟩ := a; obtain ⟨k', v'⟩ := b
    cases (show k = k' from hab.1)
    simp only [Dict.mapVal, Dict.keys, List.map_cons, List.map_map] at ih ⊢
    rw [ih]

theorem DictMean.get (h : DictMean Q d e) (k : String) : Joint Q (fun i => (d i).get k) (e.get k) := by
  obtain ⟨T, h1, h2⟩ := h
  have h3 : (fun i => (d i).get k) = fun i => (Dict.mapVal (fun v => v i) T).get k := funext fun i => by rw [h1 i]
  rw [h3]
  clear h1 h3
  induction h2 with
  | nil => exact .inl ⟨.keyError, fun _ => rfl, rfl⟩
  | @cons a b l l' hab _ ih =>
    obtain ⟨k1, v⟩ := a; obtain ⟨k', v'⟩ := b
    cases (show k1 = k' from hab.1)
    by_cases hk : k1 = k
    · subst hk
      exact .inr ⟨v, v', fun i => by simp [Dict.get, Dict.get?, Dict.mapVal], by simp [Dict.get, Dict.get?], hab.2⟩
    · have h5 : ∀ {β : Type} (u : β) (l : Dict β), Dict.get ((k1, u) :: l) k = Dict.get l k := by
        intro β u l; simp [Dict.get, Dict.get?, hk]
      rw [h5]
      have h6 : (fun i => (Dict.mapVal (fun v => v i) ((k1, v) :: l)).get k) =
          fun i => (Dict.mapVal (fun v => v i) l).get k := funext fun i => h5 _ _
      rw [h6]
      exact ih

theorem DictMean.erase (h : DictMean Q d e) (k : String) : DictMean Q (fun i => (d i).erase k) (e.erase k) := by
  obtain ⟨T, h1, h2⟩ := h
  refine ⟨T.erase k, fun i => ?_, ?_⟩
  · show (d i).erase k = _
    rw [h1 i]
    clear h1 h2
    induction T with
    | nil => rfl
    | cons a T ih =>
      obtain ⟨k', v'⟩ := a
      by_cases hk : k' = k
      · simp [Dict.erase, Dict.mapVal, hk]
      · simp [Dict.erase, Dict.mapVal, hk] at ih ⊢
        exact ih
  · clear h1
    induction h2 with
    | nil => exact .nil
    | @cons a b l l' hab hl ih =>
      obtain ⟨k1, v⟩ := a; obtain ⟨k', v'⟩ := b
      cases (show k1 = k' from hab.1)
      by_cases hk : k1 = k
      · have hl' : DictRel Q l l' := hl
        simpa [Dict.erase, hk] using hl'
      · have : DictRel Q ((k1, v) :: Dict.erase l k) ((k1, v') :: Dict.erase l' k) := .cons hab ih
        simpa [Dict.erase, hk] using this

theorem DictMean.update {d' : ι → Dict α} {e' : Dict α} (h : DictMean Q d e) (h' : DictMean Q d' e') :
    DictMean Q (fun i => (d i).update (d' i)) (e.update e') := by
  obtain ⟨T', h1, h2⟩ := h'
  have h3 : (fun i => (d i).update (d' i)) = fun i => (d i).update (Dict.mapVal (fun v => v i) T') :=
    funext fun i => by rw [h1 i]
  rw [h3]
  clear h1 h3
  induction h2 generalizing d e with
  | nil => exact h
  | @cons a b l l' hab _ ih =>
    obtain ⟨k1, v⟩ := a; obtain ⟨k', v'⟩ := b
    cases (show k1 = k' from hab.1)
    exact ih (h.set k1 hab.2)

end joint

/-! ## Arrays -/

/-- Relations of arrays that do not depend on where elements are. -/
structure Reindexes (Q : (ι → NDArray) → NDArray → Prop) : Prop where
  shape : ∀ {v a}, Q v a → ∀ i, (v i).shape = a.shape
  reindex : ∀ {v a}, Q v a → ∀ (s : List Nat) (F : List Nat → List Nat), (∀ idx, InB idx s → InB (F idx) a.shape) →
    Q (fun i => ⟨s, fun idx => (v i).get (F idx)⟩) ⟨s, fun idx => a.get (F idx)⟩

theorem arrMean_reindexes [Fintype ι] : Reindexes (ArrMean w) where
  shape h := h.shape
  reindex h _ F hF := ⟨fun _ => rfl, fun idx hi => h.val (F idx) (hF idx hi)⟩

theorem sameShape_reindexes : Reindexes (SameShape (ι := ι)) where
  shape h := h
  reindex _ _ _ _ := fun _ => rfl

theorem broadcastIdx_inB : ∀ {a s idx : List Nat}, NDArray.broadcastable a s = true → InB idx s →
    InB (NDArray.broadcastIdx a idx) a := by
  intro a
  induction a with
  | nil => intro s idx _ _; cases idx <;> trivial
  | cons x a ih =>
    intro s idx h hi
    cases s with
    | nil => cases h
    | cons y s =>
      cases idx with
      | nil => cases hi
      | cons j idx =>
        simp only [NDArray.broadcastable, Bool.and_eq_true, Bool.or_eq_true, beq_iff_eq] at h
        rw [inB_cons] at hi
        simp only [NDArray.broadcastIdx]
        rw [inB_cons]
        refine ⟨?_, ih h.2 hi.2⟩
        split
        · omega
        · rcases h.1 with h1 | h1
          · omega
          · contradiction

theorem transposeIdx_inB {s axes idx : List Nat} (h1 : axes.length = s.length) (h2 : axes.Nodup)
    (h3 : ∀ x ∈ axes, x < s.length) (hi : InB idx (axes.map fun i => s.getD i 0)) :
    InB ((List.range s.length).map fun i => idx.getD (axes.idxOf i) 0) s := by
  have hmem : ∀ i < s.length, i ∈ axes := by
    intro i hlt
    have hp : (List.range s.length).Perm axes := by
      refine ((List.subperm_of_subset h2 fun x hx => List.mem_range.2 (h3 x hx)).perm_of_length_le ?_).symm
      simp [h1]
    exact hp.subset (List.mem_range.2 hlt)
  rw [inB_iff_getElem] at hi ⊢
  obtain ⟨hl, hr⟩ := hi
  refine ⟨by simp, fun k hk hk' => ?_⟩
  have hm := hmem k hk'
  have hx := List.idxOf_lt_length_of_mem hm
  have hx' : axes.idxOf k < idx.length := by rw [hl]; simpa using hx
  have := hr (axes.idxOf k) hx' (by simpa using hx)
  simp only [List.getElem_map, List.getElem_range]
  rw [List.getD_eq_getElem?_getD, List.getElem?_eq_getElem hx']
  rw [List.getElem_map, List.getElem_idxOf, List.getD_eq_getElem?_getD, List.getElem?_eq_getElem hk'] at this
  exact this

section ops
variable {Q : (ι → NDArray) → NDArray → Prop} {v : ι → NDArray} {a : NDArray}

theorem Reindexes.reshape (hQ : Reindexes Q) (h : Q v a) (s : List Nat) :
    Joint Q (fun i => (v i).reshape s) (a.reshape s) := by
  have h1 : (fun i => (v i).reshape s) = fun i => if size s = size a.shape then
      .ok ⟨s, fun idx => (v i).get (unravel a.shape (ravel s idx))⟩ else .error .valueError := by
    funext i; unfold NDArray.reshape; rw [hQ.shape h i]
  rw [h1]
  unfold NDArray.reshape
  by_cases hs : size s = size a.shape
  · simp only [hs, if_true]
    exact .ok (hQ.reindex h s _ fun idx hi => inB_unravel (hs ▸ ravel_lt hi))
  · simp only [hs, if_false]
    exact .inl ⟨_, fun _ => rfl, rfl⟩

theorem Reindexes.transpose (hQ : Reindexes Q) (h : Q v a) (axes : List Nat) :
    Joint Q (fun i => (v i).transpose axes) (a.transpose axes) := by
  unfold NDArray.transpose
  simp only [hQ.shape h]
  by_cases hs : axes.length = a.shape.length ∧ axes.Nodup ∧ ∀ x ∈ axes, x < a.shape.length
  · simp only [if_pos hs]
    exact .ok (hQ.reindex h _ _ fun idx hi => transposeIdx_inB hs.1 hs.2.1 hs.2.2 hi)
  · simp only [if_neg hs]
    exact .inl ⟨_, fun _ => rfl, rfl⟩

theorem Reindexes.broadcastTo (hQ : Reindexes Q) (h : Q v a) (s : List Nat) :
    Joint Q (fun i => (v i).broadcastTo s) (a.broadcastTo s) := by
  unfold NDArray.broadcastTo
  simp only [hQ.shape h]
  by_cases hs : NDArray.broadcastable a.shape s = true
  · simp only [if_pos hs]
    exact .ok (hQ.reindex h _ _ fun idx hi => broadcastIdx_inB hs hi)
  · simp only [if_neg hs]
    exact .inl ⟨_, fun _ => rfl, rfl⟩

theorem Reindexes.flatten (hQ : Reindexes Q) (h : Q v a) (m n : Nat) :
    Joint Q (fun i => flattenWildcardDims (v i) m n) (flattenWildcardDims a m n) := by
  unfold flattenWildcardDims
  simp only [hQ.shape h]
  split
  · exact .inl ⟨_, fun _ => rfl, rfl⟩
  · split
    · exact .inl ⟨_, fun _ => rfl, rfl⟩
    · split
      · exact hQ.reshape h _
      · exact hQ.reshape h _

theorem Reindexes.numpyArray (hQ : Reindexes Q) {v : ι → DataArray} {a : DataArray} (h : ArrayRel Q v a)
    (outDims : List String) (lens : Dict Nat) :
    Joint Q (fun i => getNumpyArray (v i) outDims lens) (getNumpyArray a outDims lens) := by
  unfold getNumpyArray
  simp only [hQ.shape h.arr, h.dims]
  split
  · exact .ok h.arr
  split
  · exact .ok h.arr
  refine Joint.bind (Q := fun r q => Q (fun i => (r i).1) q.1 ∧ ∀ i, (r i).2 = q.2) ?_ fun r q hrq => ?_
  · split
    · exact (hQ.reshape h.arr _).bind fun u b hu => .ok ⟨hu, fun _ => rfl⟩
    · exact .ok ⟨h.arr, fun _ => rfl⟩
  · simp only [hrq.2]
    refine Joint.bind (Q := Q) ?_ fun u b hu => ?_
    · split
      · exact .ok hrq.1
      · exact Joint.bind (Q := fun x y => ∀ i, x i = y) (.same (fun _ => rfl) fun _ _ _ => rfl) fun x y hxy => by
          simp only [hxy]; exact hQ.transpose hrq.1 y
    · simp only [hQ.shape hu]
      split
      · exact .ok hu
      · split
        · exact .ok hu
        · exact hQ.broadcastTo hu _

end ops

/-! ## States -/

section states
variable [Fintype ι] {x : EState (ι → DataArray)} {z : State}

theorem MeanOf.rel {v : ι → DataArray} {a : DataArray} (h : MeanOf w v a) : ArrayRel (ArrMean w) v a where
  dims := h.dims
  attrs := h.attrs
  rank := h.wf.1
  arr := by
    refine ⟨h.shape, fun idx hi => ?_⟩
    have hl : idx.length = a.dims.length := hi.length.trans h.wf.1.symm
    have hidx : a.dims.map (DataArray.named a.dims idx) = idx := by
      apply List.ext_getElem
      · simp [hl]
      · intro n h1 h2
        simp only [List.getElem_map, DataArray.named]
        rw [List.Nodup.idxOf_getElem h.wf.2, List.getD_eq_getElem?_getD, List.getElem?_eq_getElem h2]; rfl
    have hb : ∀ d ∈ a.dims, DataArray.named a.dims idx d < a.len d :=
      (DataArray.inBounds_iff h.wf _).1 (by unfold DataArray.InBounds; rw [hidx]; exact hi)
    have hv := h.val _ hb
    unfold DataArray.at' at hv
    simp only [h.dims, hidx] at hv
    exact hv

theorem ArrayRel.mean {v : ι → DataArray} {a : DataArray} (h : ArrayRel (ArrMean w) v a) (hn : a.dims.Nodup) : MeanOf w v a where
  wf := ⟨h.rank, hn⟩
  dims := h.dims
  shape := h.arr.shape
  attrs := h.attrs
  val := fun ix hix => by
    have hb := (DataArray.inBounds_iff (a := a) ⟨h.rank, hn⟩ ix).2 hix
    unfold DataArray.at'
    simp only [h.dims]
    exact h.arr.val _ hb

theorem member_get? (h : MeanState w x z) (k : String) :
    ((∀ i, Dict.get? (memberState i x) k = none) ∧ Dict.get? z k = none) ∨
    ∃ e y, (∀ i, Dict.get? (memberState i x) k = some (memberVal i e)) ∧ Dict.get? z k = some y ∧
      EntryRel (fun _ => MeanOf w) k e y := by
  induction h with
  | nil => exact .inl ⟨fun _ => rfl, rfl⟩
  | @cons a b l l' hab _ ih =>
    obtain ⟨k1, e⟩ := a; obtain ⟨k', y⟩ := b
    cases (show k1 = k' from hab.1)
    have h5 : ∀ {β : Type} (u : β) (l : Dict β), Dict.get? ((k1, u) :: l) k = if k1 = k then some u else Dict.get? l k :=
      fun _ _ => rfl
    have h6 : ∀ i, Dict.get? (memberState i ((k1, e) :: l)) k =
        if k1 = k then some (memberVal i e) else Dict.get? (memberState i l) k := fun i => h5 _ _
    by_cases hk : k1 = k
    · exact .inr ⟨e, y, fun i => by rw [h6, if_pos hk], by rw [h5, if_pos hk], hk ▸ hab.2⟩
    · rw [h5, if_neg hk]
      simp only [h6, if_neg hk]
      exact ih

theorem member_keys (h : MeanState w x z) (i : ι) : Dict.keys (memberState i x) = Dict.keys z := by
  induction h with
  | nil => rfl
  | @cons a b l l' hab _ ih =>
    obtain ⟨k1, e⟩ := a; obtain ⟨k', y⟩ := b
    cases (show k1 = k' from hab.1)
    show k1 :: Dict.keys (memberState i l) = k1 :: Dict.keys l'
    rw [ih]

theorem member_da (h : MeanState w x z) (k : String) :
    Joint (MeanOf w) (fun i => (memberState i x).da k) (z.da k) := by
  unfold State.da
  rcases member_get? h k with ⟨h1, h2⟩ | ⟨e, y, h1, h2, h3⟩
  · simp only [h1, h2]; exact .inl ⟨_, fun _ => rfl, rfl⟩
  · simp only [h1, h2]
    cases e with
    | time t =>
      cases y with
      | time t' => exact .inl ⟨_, fun _ => rfl, rfl⟩
      | da b => exact h3.elim
    | da v =>
      cases y with
      | time t' => exact h3.elim
      | da b => exact .ok h3

theorem matchLoop_member (h : MeanState w x z) (i : ι) (P : PropDict) (wild : List String) (lens : Dict Nat) :
    matchLoop (memberState i x) P wild lens = matchLoop z P wild lens := by
  induction P generalizing wild lens with
  | nil => rfl
  | cons kv P ih =>
    obtain ⟨n, p⟩ := kv
    unfold matchLoop
    congr 1
    funext du
    rcases member_da h n with ⟨e, h1, h2⟩ | ⟨v, a, h1, h2, h3⟩
    · rw [show (memberState i x).da n = _ from h1 i, h2]; rfl
    · rw [show (memberState i x).da n = _ from h1 i, h2]
      simp only [Exc.ok_bind, h3.dims i, h3.shape i, ih]

theorem getWildcard_member (h : MeanState w x z) (i : ι) (P : PropDict) :
    getWildcard (memberState i x) P = getWildcard z P := by
  unfold getWildcard
  rw [matchLoop_member h]

theorem getArray_means (R : Registry) (hw : ∑ i, w i = 1) {v : ι → DataArray} {a : DataArray} (h : MeanOf w v a) (u : String)
    (dims : List String) (lens : Dict Nat) :
    Joint (ArrMean w) (fun i => getArray R (v i) u dims lens) (getArray R a u dims lens) := by
  obtain ⟨i0⟩ := nonempty_of_weights hw
  unfold getArray
  simp only [h.attrs]
  cases a.attrs.get? "units" with
  | none => exact .inl ⟨_, fun _ => rfl, rfl⟩
  | some _ =>
    rcases h.toUnits_each R hw i0 u with ⟨e, h1, h2⟩ | ⟨r, q, h1, h2, h3⟩
    · simp only [h1, h2]
      cases e <;> exact .inl ⟨_, fun _ => rfl, rfl⟩
    · simp only [h1, h2]
      exact arrMean_reindexes.numpyArray h3.rel _ _

theorem rawInput_means (R : Registry) (hw : ∑ i, w i = 1) (h : MeanState w x z) (wild : List String) (lens : Dict Nat)
    (n : String) (p : QProps) :
    Joint (fun r q => (∀ i, (r i).1 = q.1) ∧ ArrMean w (fun i => (r i).2) q.2)
      (fun i => rawInput R (memberState i x) wild lens n p) (rawInput R z wild lens n p) := by
  unfold rawInput
  refine Joint.bind (Q := fun r q => ∀ i, r i = q) (.same (fun _ => rfl) fun _ _ _ => rfl) fun du du' hdu => ?_
  simp only [hdu]
  refine (member_da h n).bind fun v a hv => ?_
  refine Joint.bind (Q := ArrMean w) ?_ fun u b hu => .ok ⟨fun _ => rfl, hu⟩
  split
  · exact (getArray_means R hw hv _ _ _).bind fun u b hu => arrMean_reindexes.flatten hu _ _
  · exact getArray_means R hw hv _ _ _

theorem rawInputs_means (R : Registry) (hw : ∑ i, w i = 1) (h : MeanState w x z) (wild : List String) (lens : Dict Nat)
    (P : PropDict) {d : ι → Dict NDArray} {e : Dict NDArray} (hd : DictMean (ArrMean w) d e) :
    Joint (DictMean (ArrMean w)) (fun i => rawInputs R (memberState i x) wild lens P (d i)) (rawInputs R z wild lens P e) := by
  induction P generalizing d e with
  | nil => exact .ok hd
  | cons kv P ih =>
    obtain ⟨n, p⟩ := kv
    unfold rawInputs
    refine (rawInput_means R hw h wild lens n p).bind fun r q hrq => ?_
    simp only [hrq.1]
    exact ih (hd.set q.1 hrq.2)

theorem getNumpyArrays_means (R : Registry) (hw : ∑ i, w i = 1) (h : MeanState w x z) (P : PropDict) :
    Joint (DictMean (ArrMean w)) (fun i => getNumpyArrays R (memberState i x) P) (getNumpyArrays R z P) := by
  unfold getNumpyArrays
  refine Joint.bind (Q := fun r q => ∀ i, r i = q) (.same (fun i => getWildcard_member h i P) fun _ _ _ => rfl)
    fun wl wl' hwl => ?_
  simp only [hwl]
  exact rawInputs_means R hw h _ _ P .nil

/-! ## Tracers -/

/-- Lists of arrays of the members and of the mean. -/
def ListMean (w : ι → Rat) (l : ι → List NDArray) (m : List NDArray) : Prop :=
  ∃ T : List (ι → NDArray), (∀ i, l i = T.map fun v => v i) ∧ List.Forall₂ (ArrMean w) T m

omit [Fintype ι] in
theorem eraseIdx_inB {s idx : List Nat} {k n : Nat} (h : InB idx (s.insertIdx k n)) : InB (idx.eraseIdx k) s := by
  induction s generalizing idx k with
  | nil =>
    cases k with
    | zero =>
      cases idx with
      | nil => cases h
      | cons j idx => simp at h ⊢; cases idx with
        | nil => trivial
        | cons _ _ => simp [InB] at h
    | succ k =>
      cases idx with
      | nil => trivial
      | cons j idx => simp [InB] at h
  | cons b s ih =>
    cases k with
    | zero =>
      cases idx with
      | nil => cases h
      | cons j idx => simp at h ⊢; exact h.2
    | succ k =>
      cases idx with
      | nil => simp [InB] at h
      | cons j idx =>
        simp only [List.insertIdx_succ_cons, inB_cons, List.eraseIdx_cons_succ] at h ⊢
        exact ⟨h.1, ih h.2⟩

omit [Fintype ι] in
theorem insertIdx_inB {s idx : List Nat} {k n i : Nat} (hk : s[k]? = some n) (hi : i < n) (h : InB idx (s.eraseIdx k)) :
    InB (idx.insertIdx k i) s := by
  induction s generalizing idx k with
  | nil => simp at hk
  | cons b s ih =>
    cases k with
    | zero => simp at hk h ⊢; subst hk; exact ⟨hi, h⟩
    | succ k =>
      cases idx with
      | nil => simp [InB] at h
      | cons j idx =>
        simp only [List.eraseIdx_cons_succ, inB_cons, List.insertIdx_succ_cons] at h ⊢
        exact ⟨h.1, ih (by simpa using hk) h.2⟩

theorem ListMean.getElem? {l : ι → List NDArray} {m : List NDArray} (h : ListMean w l m) (k : Nat) :
    ((∀ i, (l i)[k]? = none) ∧ m[k]? = none) ∨
    ∃ v a, (∀ i, (l i)[k]? = some (v i)) ∧ m[k]? = some a ∧ ArrMean w v a := by
  obtain ⟨T, h1, h2⟩ := h
  simp only [h1]
  clear h1
  induction h2 generalizing k with
  | nil => exact .inl ⟨fun _ => rfl, rfl⟩
  | @cons v a T m hv _ ih =>
    cases k with
    | zero => exact .inr ⟨v, a, fun _ => rfl, rfl, hv⟩
    | succ k => simpa using ih k

theorem mapM_means {β : Type} {f : ι → β → Except Err NDArray} {g : β → Except Err NDArray} {W : NDArray → Prop}
    (h : ∀ b, Joint (fun v a => ArrMean w v a ∧ W a) (fun i => f i b) (g b)) (l : List β) :
    Joint (fun u m => ListMean w u m ∧ ∀ a ∈ m, W a) (fun i => l.mapM (f i)) (l.mapM g) := by
  induction l with
  | nil => exact .ok ⟨⟨[], fun _ => rfl, .nil⟩, fun _ h => by cases h⟩
  | cons b l ih =>
    simp only [List.mapM_cons]
    refine (h b).bind fun v a hv => ih.bind fun u m hu => ?_
    obtain ⟨⟨T, t1, t2⟩, t3⟩ := hu
    refine .ok ⟨⟨v :: T, fun i => by show v i :: u i = _; rw [t1]; rfl, .cons hv.1 t2⟩, ?_⟩
    rintro a' (_ | ⟨_, ha'⟩)
    · exact hv.2
    · exact t3 a' ha'

theorem stack_means {l : ι → List NDArray} {m : List NDArray} (h : ListMean w l m) {s : List Nat} (hs : ∀ a ∈ m, a.shape = s)
    (k n : Nat) : ArrMean w (fun i => NDArray.stack (s.insertIdx k n) k (l i)) (NDArray.stack (s.insertIdx k n) k m) := by
  refine ⟨fun _ => rfl, fun idx hi => ?_⟩
  show (match m[idx.getD k 0]? with | some a => a.get (idx.eraseIdx k) | none => 0) = ∑ i, w i *
    (match (l i)[idx.getD k 0]? with | some a => a.get (idx.eraseIdx k) | none => 0)
  rcases h.getElem? (idx.getD k 0) with ⟨h1, h2⟩ | ⟨v, a, h1, h2, h3⟩
  · simp only [h1, h2, mul_zero, Finset.sum_const_zero]
  · simp only [h1, h2]
    exact h3.val _ (by rw [hs a (List.mem_of_getElem? h2)]; exact eraseIdx_inB hi)

theorem pack_means (R : Registry) (hw : ∑ i, w i = 1) (g : Tracers) (h : MeanState w x z) (p : Packer) :
    Joint (ArrMean w) (fun i => p.pack R g (memberState i x)) (p.pack R g z) := by
  unfold Packer.pack
  refine Joint.bind (Q := fun r q => ∀ i, r i = q) (.same (fun _ => rfl) fun _ _ _ => rfl) fun qd qd' hq => ?_
  simp only [hq]
  refine (getNumpyArrays_means R hw h _).bind fun d e hd => ?_
  split
  · exact .ok ⟨fun _ => rfl, fun _ _ => by simp [NDArray.zeros]⟩
  · refine (hd.get _).bind fun v a hv => ?_
    simp only [hv.shape]
    refine (mapM_means (w := w) (W := fun b => b.shape = a.shape) (fun n => ?_) _).bind fun u m hu => ?_
    · refine (hd.get n).bind fun v' a' hv' => ?_
      rcases arrMean_reindexes.broadcastTo hv' a.shape with ⟨e, h1, h2⟩ | ⟨r, q, h1, h2, h3⟩
      · exact .inl ⟨e, h1, h2⟩
      · refine .inr ⟨r, q, h1, h2, h3, ?_⟩
        unfold NDArray.broadcastTo at h2
        split at h2
        · cases h2; rfl
        · cases h2
    · exact .ok (stack_means hu.1 hu.2 _ _)

theorem prepare_means (R : Registry) (hw : ∑ i, w i = 1) (g : Tracers) (c : Class) (t : Inst) (h : MeanState w x z) :
    Joint (RawMean w) (fun i => prepare R g c t (memberState i x)) (prepare R g c t z) := by
  unfold prepare
  have hck : ∀ i, checkInputs c.inProps (memberState i x) = checkInputs c.inProps z := fun i => by
    unfold checkInputs; rw [member_keys h]
  simp only [hck]
  refine Joint.bind (Q := fun _ _ => True) (.same (fun _ => rfl) fun _ _ => trivial) fun _ _ _ => ?_
  refine (getNumpyArrays_means R hw h _).bind fun d e hd => ?_
  refine Joint.bind (Q := DictMean (ArrMean w)) ?_ fun d' e' hd' => ?_
  · cases t.packer with
    | none => exact .ok hd
    | some p => exact (pack_means R hw g h p).bind fun v a hv => .ok (hd.set _ hv)
  · refine Joint.bind (Q := fun v y => ∃ e, (∀ i, v i = memberVal i e) ∧ EntryRel (fun _ => MeanOf w) "time" e y) ?_
      fun v y hv => .ok ⟨hd', hv⟩
    unfold Dict.get
    rcases member_get? h "time" with ⟨h1, h2⟩ | ⟨e, y, h1, h2, h3⟩
    · simp only [h1, h2]; exact .inl ⟨_, fun _ => rfl, rfl⟩
    · simp only [h1, h2]; exact .ok ⟨e, fun _ => rfl, h3⟩

/-! ## Restoring -/

variable {Q : (ι → NDArray) → NDArray → Prop}

omit [Fintype ι] in
theorem restoreOne_rel (hQ : Reindexes Q) {raw : ι → Dict NDArray} {raw' : Dict NDArray} (hr : DictMean Q raw raw')
    (outP inP : PropDict) (wild : Option (List String)) (lens : Dict Nat) (n : String) (dims : List String) :
    Joint (fun r q => ArrayRel Q (fun i => (r i).1) q.1 ∧ ∀ i, (r i).2 = q.2)
      (fun i => restoreOne (raw i) outP inP wild lens n dims) (restoreOne raw' outP inP wild lens n dims) := by
  unfold restoreOne
  refine (hr.get _).bind fun v a hv => ?_
  refine Joint.bind (Q := fun r q => (∀ i, (r i).1 = q.1) ∧ Q (fun i => (r i).2.1) q.2.1 ∧ ∀ i, (r i).2.2 = q.2.2) ?_
    fun r q hrq => ?_
  · simp only [hQ.shape hv]
    split
    · cases wild with
      | none =>
        dsimp only
        refine Joint.bind (Q := fun _ _ => True) (.same (fun _ => rfl) fun _ _ => trivial) fun _ _ _ => ?_
        exact .inl ⟨_, fun _ => rfl, rfl⟩
      | some wl =>
        dsimp only
        refine Joint.bind (Q := fun r q => ∀ i, r i = q) (.same (fun _ => rfl) fun _ _ _ => rfl) fun ds ds' hds => ?_
        simp only [hds]
        rcases hQ.reshape hv ds'.2 with ⟨e, h1, h2⟩ | ⟨u, b, h1, h2, h3⟩
        · simp only [h1, h2]; exact .inl ⟨_, fun _ => rfl, rfl⟩
        · simp only [h1, h2]; exact .ok ⟨fun _ => rfl, h3, fun _ => rfl⟩
    · refine Joint.bind (Q := fun _ _ => True) (.same (fun _ => rfl) fun _ _ => trivial) fun _ _ _ => ?_
      exact .ok ⟨fun _ => rfl, hv, fun _ => rfl⟩
  · cases (outP.get? n).bind (·.units) with
    | none => exact .inl ⟨_, fun _ => rfl, rfl⟩
    | some u =>
      dsimp only
      unfold DataArray.mk'
      simp only [hrq.1, hrq.2.2, hQ.shape hrq.2.1]
      split
      · rename_i hlen
        exact .ok ⟨⟨fun _ => rfl, fun _ => rfl, hlen, hrq.2.1⟩, fun _ => rfl⟩
      · exact .inl ⟨_, fun _ => rfl, rfl⟩

omit [Fintype ι] in
theorem restoreLoop_rel (hQ : Reindexes Q) {raw : ι → Dict NDArray} {raw' : Dict NDArray} (hr : DictMean Q raw raw')
    (outP inP : PropDict) (wild : Option (List String)) (ign : List String) (ds : Dict (List String)) (lens : Dict Nat)
    {d : ι → Dict DataArray} {e : Dict DataArray} (hd : DictMean (ArrayRel Q) d e) :
    Joint (DictMean (ArrayRel Q)) (fun i => restoreLoop (raw i) outP inP wild ign ds lens (d i))
      (restoreLoop raw' outP inP wild ign ds lens e) := by
  induction ds generalizing lens d e with
  | nil => exact .ok hd
  | cons kv ds ih =>
    obtain ⟨n, dims⟩ := kv
    unfold restoreLoop
    split
    · exact ih lens hd
    · refine (restoreOne_rel hQ hr outP inP wild lens n dims).bind fun r q hrq => ?_
      simp only [hrq.2]
      exact ih q.2 (hd.set n hrq.1)

theorem restore_rel (hQ : Reindexes Q) (h : MeanState w x z) {raw : ι → Dict NDArray} {raw' : Dict NDArray}
    (hr : DictMean Q raw raw') (outP inP : PropDict) (ign : List String) :
    Joint (DictMean (ArrayRel Q)) (fun i => restoreDataArrays (raw i) outP (memberState i x) inP ign false)
      (restoreDataArrays raw' outP z inP ign false) := by
  unfold restoreDataArrays
  simp only [Bool.false_eq_true, if_false, getWildcard_member h]
  refine Joint.bind (Q := fun r q => ∀ i, r i = q) (.same (fun _ => rfl) fun _ _ _ => rfl) fun wl wl' hwl => ?_
  refine Joint.bind (Q := fun r q => ∀ i, r i = q) (.same (fun _ => rfl) fun _ _ _ => rfl) fun ds ds' hds => ?_
  simp only [hwl, hds]
  exact restoreLoop_rel hQ hr _ _ _ _ _ _ .nil

theorem readSlices_means (k : Nat) (l : List String) (n : Nat) {v : ι → NDArray} {a : NDArray} (hv : ArrMean w v a)
    {d : ι → Dict NDArray} {e : Dict NDArray} (hd : DictMean (ArrMean w) d e) :
    Joint (DictMean (ArrMean w)) (fun i => readSlices (v i) k l n (d i)) (readSlices a k l n e) := by
  induction l generalizing n d e with
  | nil => exact .ok hd
  | cons m l ih =>
    unfold readSlices
    refine Joint.bind (Q := ArrMean w) ?_ fun u b hu => ih (n + 1) (hd.set m hu)
    unfold readSlice
    simp only [hv.shape]
    cases hk : a.shape[k]? with
    | none => exact .inl ⟨_, fun _ => rfl, rfl⟩
    | some len =>
      dsimp only
      split
      · rename_i hlt
        unfold NDArray.slice
        simp only [hv.shape]
        exact .ok (arrMean_reindexes.reindex hv _ (fun idx => idx.insertIdx k n) fun idx hi => insertIdx_inB hk hlt hi)
      · exact .inl ⟨_, fun _ => rfl, rfl⟩

theorem takeTracers_means (g : Tracers) (t : Inst) (h : MeanState w x z) {raw : ι → Dict NDArray} {raw' : Dict NDArray}
    (hr : DictMean (ArrMean w) raw raw') (u : String) :
    Joint (fun r q => DictMean (ArrayRel (ArrMean w)) (fun i => (r i).1) q.1 ∧ DictMean (ArrMean w) (fun i => (r i).2) q.2)
      (fun i => takeTracers g t (raw i) (memberState i x) u) (takeTracers g t raw' z u) := by
  unfold takeTracers
  cases t.packer with
  | none => exact .ok ⟨.nil, hr⟩
  | some p =>
    dsimp only
    refine (hr.get _).bind fun v a hv => ?_
    refine Joint.bind (Q := DictMean (ArrayRel (ArrMean w))) ?_ fun d e hd => .ok ⟨hd, hr.erase _⟩
    unfold Packer.unpack
    refine Joint.bind (Q := fun r q => ∀ i, r i = q) (.same (fun _ => rfl) fun _ _ _ => rfl) fun qd qd' hq => ?_
    simp only [hq]
    exact (readSlices_means _ _ _ hv .nil).bind fun d e hd => restore_rel arrMean_reindexes h hd _ _ _

omit [Fintype ι] in
theorem insertTendencies_means {P : (ι → DataArray) → DataArray → Prop} (n : String) {d e : ι → Dict DataArray}
    {d' e' : Dict DataArray} (hd : DictMean P d d') (he : DictMean P e e') :
    DictMean P (fun i => insertTendencies n (d i) (e i)) (insertTendencies n d' e') := by
  obtain ⟨T, h1, h2⟩ := hd
  simp only [h1]
  clear h1
  induction h2 generalizing e e' with
  | nil => exact he
  | @cons a b l l' hab _ ih =>
    obtain ⟨k1, v⟩ := a; obtain ⟨k', v'⟩ := b
    cases (show k1 = k' from hab.1)
    exact ih (he.set _ hab.2)

omit [Fintype ι] in
theorem DictMean.mono {α : Type} {Q P : (ι → α) → α → Prop} {d : ι → Dict α} {e : Dict α} (h : DictMean Q d e)
    (hQ : ∀ v a, Q v a → P v a) : DictMean P d e := by
  obtain ⟨T, h1, h2⟩ := h
  exact ⟨T, h1, List.Forall₂.imp (fun _ _ hab => ⟨hab.1, hQ _ _ hab.2⟩) h2⟩

theorem finishTendency_means (hQ : Reindexes Q) (hw : ∀ v a, ArrMean w v a → Q v a) (g : Tracers) (c : Class) (t : Inst)
    (h : MeanState w x z) {rT rD : ι → Dict NDArray} {rT' rD' : Dict NDArray} (hT : DictMean (ArrMean w) rT rT')
    (hD : DictMean Q rD rD') :
    Joint (fun r q => DictMean (ArrayRel (ArrMean w)) (fun i => (r i).1) q.1 ∧ DictMean (ArrayRel Q) (fun i => (r i).2) q.2)
      (fun i => finishTendency g c t (memberState i x) (rT i) (rD i)) (finishTendency g c t z rT' rD') := by
  unfold finishTendency
  refine (takeTracers_means g t h hT _).bind fun r q hrq => ?_
  refine Joint.bind (Q := fun _ _ => True) (.same (fun i => checkRaw_keys (hrq.2.keys i)) fun _ _ => trivial) fun _ _ _ => ?_
  refine Joint.bind (Q := fun _ _ => True) (.same (fun i => checkRaw_keys (hD.keys i)) fun _ _ => trivial) fun _ _ _ => ?_
  refine (restore_rel arrMean_reindexes h hrq.2 _ _ _).bind fun d e hd => ?_
  refine (restore_rel hQ h hD _ _ _).bind fun d2 e2 hd2 => ?_
  refine .ok ⟨hrq.1.update hd, ?_⟩
  dsimp only
  split
  · exact insertTendencies_means _ ((hrq.1.update hd).mono fun v a hva => ⟨hva.dims, hva.attrs, hva.rank, hw _ _ hva.arr⟩) hd2
  · exact hd2

/-- What the state of the mean is: every quantity one name per axis, none twice. -/
theorem mean_wf (h : MeanState w x z) : z.WF := by
  intro n a ha
  rcases member_get? h n with ⟨_, h2⟩ | ⟨e, y, _, h2, h3⟩
  · rw [ha] at h2; cases h2
  · rw [ha] at h2
    cases h2
    cases e with
    | time t => exact h3.elim
    | da v => exact h3.wf

omit [Fintype ι] in
theorem dictMean_meanOf [Fintype ι] {d : ι → Dict DataArray} {e : Dict DataArray} (h : DictMean (ArrayRel (ArrMean w)) d e)
    (hn : ∀ kv ∈ e, kv.2.dims.Nodup) : DictMean (MeanOf w) d e := by
  obtain ⟨T, h1, h2⟩ := h
  refine ⟨T, h1, ?_⟩
  clear h1
  revert hn
  induction h2 with
  | nil => exact fun _ => .nil
  | @cons a b l l' hab _ ih =>
    exact fun hn => .cons ⟨hab.1, hab.2.mean (hn b List.mem_cons_self)⟩ (ih fun kv hkv => hn kv (List.mem_cons_of_mem _ hkv))

/-- **C121, component classes.**  A TendencyComponent or ImplicitTendencyComponent turns means into means
if its `array_call` does, with units, axes in any order, wildcards and tracers.  (No tendency may have the same axis
twice: `hn`, see `tidy_dims`.) -/
theorem class_means {σ : Type} (R : Registry) (hw : ∑ i, w i = 1) (g : Tracers) (c : Class) (t : Inst)
    {ac : Int → σ → RawState → σ × Except Err (Dict NDArray × Dict NDArray)} (hQ : Reindexes Q)
    (hm : ∀ v a, ArrMean w v a → Q v a) (hac : ∀ dt, ArraysKeepMeans w (ArrMean w) Q (ac dt))
    (hn : ∀ dt s (state : State) r, state.WF → (callTendency R g c t (ac dt) s state).2 = .ok r → ∀ kv ∈ r.1, kv.2.dims.Nodup) :
    KeepsMeans w (ArrayRel Q) (fun s state dt => callTendency R g c t (ac dt) s state) := by
  intro s x z dt hz
  have hn := fun r => hn dt s z r (mean_wf hz)
  unfold callTendency at hn ⊢
  rcases prepare_means R hw g c t hz with ⟨e, h1, h2⟩ | ⟨raws, raw, h1, h2, h3⟩
  · simp only [h1, h2]
    exact ⟨fun _ => trivial, .inl ⟨e, fun _ => rfl, rfl⟩⟩
  · simp only [h1, h2] at hn ⊢
    obtain ⟨a1, a2⟩ := hac dt s raws raw h3
    refine ⟨a1, ?_⟩
    rcases a2.bind (f := fun i r => finishTendency g c t (memberState i x) r.1 r.2) (g := fun r => finishTendency g c t z r.1 r.2)
      fun r q hrq => finishTendency_means hQ hm g c t hz hrq.1 hrq.2 with ⟨e, b1, b2⟩ | ⟨r, q, b1, b2, hT, D, d1, d2⟩
    · exact .inl ⟨e, b1, b2⟩
    · obtain ⟨T, c1, c2⟩ := dictMean_meanOf hT (hn q b2)
      refine .inr ⟨T, D, q.1, q.2, fun i => ?_, b2, c2, d2⟩
      exact (b1 i).trans (congrArg Except.ok (Prod.ext (c1 i) (d1 i)))

/-- **C121, DiagnosticComponents**: what they return for the mean state is related to what they return for the
members as the arrays of their `array_call` are: the mean, if `Q` is `ArrMean w`. -/
theorem diagnostic_means {σ : Type} (R : Registry) (hw : ∑ i, w i = 1) (g : Tracers) (c : Class) (t : Inst)
    {ac : σ → RawState → σ × Except Err (Dict NDArray)} (hQ : Reindexes Q)
    (hac : ArraysKeepMeans w Q Q fun s raw => ((ac s raw).1, (ac s raw).2 >>= fun d => .ok (d, []))) (s : σ) (hz : MeanState w x z) :
    (∀ i, (callDiagnostic R g c t ac s (memberState i x)).1 = (callDiagnostic R g c t ac s z).1) ∧
    Joint (DictMean (ArrayRel Q)) (fun i => (callDiagnostic R g c t ac s (memberState i x)).2) (callDiagnostic R g c t ac s z).2 := by
  unfold callDiagnostic
  rcases prepare_means R hw g c t hz with ⟨e, h1, h2⟩ | ⟨raws, raw, h1, h2, h3⟩
  · simp only [h1, h2]
    exact ⟨fun _ => trivial, .inl ⟨e, fun _ => rfl, rfl⟩⟩
  · simp only [h1, h2]
    obtain ⟨a1, a2⟩ := hac s raws raw h3
    refine ⟨a1, ?_⟩
    have a3 : Joint (DictMean Q) (fun i => (ac s (raws i)).2) (ac s raw).2 := by
      rcases a2 with ⟨e, b1, b2⟩ | ⟨r, q, b1, b2, b3, _⟩
      · refine .inl ⟨e, fun i => ?_, ?_⟩
        · rcases Exc.bind_error_iff.1 (b1 i) with h | ⟨_, _, h⟩
          · exact h
          · cases h
        · rcases Exc.bind_error_iff.1 b2 with h | ⟨_, _, h⟩
          · exact h
          · cases h
      · refine .inr ⟨fun i => (r i).1, q.1, fun i => ?_, ?_, b3⟩
        · obtain ⟨d, h4, h5⟩ := Exc.bind_ok_iff.1 (b1 i)
          dsimp only
          rw [h4, ← show (d, []) = r i from Except.ok.inj h5]
        · obtain ⟨d, h4, h5⟩ := Exc.bind_ok_iff.1 b2
          rw [h4]; cases h5; rfl
    refine a3.bind fun d e hd => ?_
    unfold finishDiagnostic
    refine Joint.bind (Q := fun _ _ => True) (.same (fun i => checkRaw_keys (hd.keys i)) fun _ _ => trivial) fun _ _ _ => ?_
    exact restore_rel hQ hz hd _ _ _

/-! ## Steppers -/

omit [Fintype ι] in
theorem bcRev_left {p q s : List Nat} (h : bcRev p q = some s) :
    List.Forall₂ (fun x y => x = y ∨ x = 1) p (s.take p.length) := by
  induction p generalizing q s with
  | nil => simp
  | cons a p ih =>
    cases q with
    | nil =>
      unfold bcRev at h
      cases h
      simp only [List.take_length]
      exact List.forall₂_same.2 fun _ _ => .inl rfl
    | cons b q =>
      unfold bcRev at h
      split at h
      · obtain ⟨r, h1, rfl⟩ := Option.map_eq_some_iff.1 h
        exact .cons (.inl rfl) (ih h1)
      · split at h
        · rename_i h1
          obtain ⟨r, h2, rfl⟩ := Option.map_eq_some_iff.1 h
          exact .cons (.inr h1) (ih h2)
        · split at h
          · obtain ⟨r, h2, rfl⟩ := Option.map_eq_some_iff.1 h
            exact .cons (.inl rfl) (ih h2)
          · cases h

omit [Fintype ι] in
theorem broadcastable_of {a s : List Nat} (h : List.Forall₂ (fun x y => x = y ∨ x = 1) a s) : NDArray.broadcastable a s = true := by
  induction h with
  | nil => rfl
  | cons hab _ ih => simp [NDArray.broadcastable, ih, hab]

omit [Fintype ι] in
theorem inB_drop {idx s : List Nat} (h : InB idx s) (k : Nat) : InB (idx.drop k) (s.drop k) := by
  induction k generalizing idx s with
  | zero => exact h
  | succ k ih =>
    cases idx with
    | nil => cases s with
      | nil => trivial
      | cons _ _ => cases h
    | cons j idx =>
      cases s with
      | nil => cases h
      | cons n s => exact ih (inB_cons.1 h).2

omit [Fintype ι] in
theorem bcIdx_inB {a b s idx : List Nat} (h : bcRev a.reverse b.reverse = some s) (hi : InB idx s.reverse) :
    InB (bcIdx a idx) a := by
  have h1 := bcRev_left h
  have hl : a.length ≤ s.length := by
    have := h1.length_eq
    simp at this
    omega
  have h2 : NDArray.broadcastable a (s.reverse.drop (s.length - a.length)) = true := by
    refine broadcastable_of ?_
    have h3 := List.rel_reverse h1
    rw [List.reverse_reverse, List.length_reverse, List.reverse_take] at h3
    exact h3
  unfold bcIdx
  have h4 := inB_drop hi (s.length - a.length)
  have h5 : idx.length = s.length := by rw [hi.length, List.length_reverse]
  rw [h5]
  exact broadcastIdx_inB h2 h4

theorem difference_means {v u : ι → NDArray} {a b : NDArray} (h : ArrMean w v a) (h' : ArrMean w u b) (r : Rat) :
    Joint (ArrMean w) (fun i => NDArray.zipWith (fun p q => (p - q) / r) (v i) (u i))
      (NDArray.zipWith (fun p q => (p - q) / r) a b) := by
  unfold NDArray.zipWith
  simp only [h.shape, h'.shape]
  cases hs : bcRev a.shape.reverse b.shape.reverse with
  | none => exact .inl ⟨_, fun _ => rfl, rfl⟩
  | some s =>
    refine .ok ⟨fun _ => rfl, fun idx hi => ?_⟩
    dsimp only at hi ⊢
    rw [h.val _ (bcIdx_inB hs hi), h'.val _ (bcIdx_inB (by rw [bcRev_comm]; exact hs) hi), ← Finset.sum_sub_distrib,
      div_eq_mul_inv, Finset.sum_mul]
    refine Finset.sum_congr rfl fun i _ => ?_
    ring

theorem insertDifferences_means (hm : ∀ v a, ArrMean w v a → Q v a) (inst : String) (dt : Int) (l : List String)
    {rS rN rD : ι → Dict NDArray} {rS' rN' rD' : Dict NDArray} (hS : DictMean (ArrMean w) rS rS')
    (hN : DictMean (ArrMean w) rN rN') (hD : DictMean Q rD rD') :
    Joint (DictMean Q) (fun i => insertDifferences inst (rS i) (rN i) dt l (rD i)) (insertDifferences inst rS' rN' dt l rD') := by
  induction l generalizing rD rD' with
  | nil => exact .ok hD
  | cons n l ih =>
    unfold insertDifferences
    refine (hN.get n).bind fun v a hv => (hS.get n).bind fun u b hu => ?_
    exact (difference_means hv hu _).bind fun d e hd => ih (hD.set _ (hm _ _ hd))

/-- **C121, Steppers.**  The new state is the mean of those of the members, the diagnostics (with the
tendencies) are in the relation `Q`. -/
theorem stepper_means {σ : Type} (R : Registry) (hw : ∑ i, w i = 1) (g : Tracers) (c : Class) (t : Inst)
    {ac : σ → RawState → Int → σ × Except Err (Dict NDArray × Dict NDArray)} (hQ : Reindexes Q)
    (hm : ∀ v a, ArrMean w v a → Q v a) (dt : Int) (hac : ArraysKeepMeans w Q (ArrMean w) fun s raw => ac s raw dt) (s : σ)
    (hz : MeanState w x z) :
    (∀ i, (callStepper R g c t ac s (memberState i x) dt).1 = (callStepper R g c t ac s z dt).1) ∧
    Joint (fun r q => DictMean (ArrayRel Q) (fun i => (r i).1) q.1 ∧ DictMean (ArrayRel (ArrMean w)) (fun i => (r i).2) q.2)
      (fun i => (callStepper R g c t ac s (memberState i x) dt).2) (callStepper R g c t ac s z dt).2 := by
  unfold callStepper
  rcases prepare_means R hw g c t hz with ⟨e, h1, h2⟩ | ⟨raws, raw, h1, h2, h3⟩
  · simp only [h1, h2]
    exact ⟨fun _ => trivial, .inl ⟨e, fun _ => rfl, rfl⟩⟩
  · simp only [h1, h2]
    obtain ⟨a1, a2⟩ := hac s raws raw h3
    refine ⟨a1, a2.bind fun r q hrq => ?_⟩
    unfold finishStepper
    refine (takeTracers_means g t hz hrq.2 _).bind fun r1 q1 h4 => ?_
    refine Joint.bind (Q := fun _ _ => True) (.same (fun i => checkRaw_keys (hrq.1.keys i)) fun _ _ => trivial) fun _ _ _ => ?_
    refine Joint.bind (Q := fun _ _ => True) (.same (fun i => checkRaw_keys (h4.2.keys i)) fun _ _ => trivial) fun _ _ _ => ?_
    refine Joint.bind (Q := DictMean Q) ?_ fun d e hd => ?_
    · split
      · exact insertDifferences_means hm _ _ _ h3.arrays h4.2 hrq.1
      · exact .ok hrq.1
    · refine (restore_rel hQ hz hd _ _ _).bind fun d1 e1 hd1 => ?_
      refine (restore_rel arrMean_reindexes hz h4.2 _ _ _).bind fun d2 e2 hd2 => ?_
      exact .ok ⟨hd1, h4.1.update hd2⟩

/-! ## No axis twice -/

omit [Fintype ι] in
theorem restored_tidy {raw : Dict NDArray} {outP inP : PropDict} {state : State} {ign : List String} {out : Dict DataArray}
    (hwf : state.WF) (hk : outP.keys.Nodup) (ht : TidyDims inP outP) (h : restoreDataArrays raw outP state inP ign false = .ok out) :
    ∀ kv ∈ out, kv.2.dims.Nodup := by
  intro kv hkv
  have hone : ∀ kv ∈ outP, ∀ d, effDims inP kv.1 kv.2 = some d → d.count "*" ≤ 1 :=
    fun kv hkv d hd => List.nodup_iff_count_le_one.1 (ht kv hkv d hd).1 "*"
  obtain ⟨k1, k2⟩ := restored_outputs_carry_state_dims raw outP state inP ign false out hwf hk hone h
  obtain ⟨m1, m2, -⟩ := (k1 kv.1).1 (List.mem_map.2 ⟨kv, hkv, rfl⟩)
  obtain ⟨p, hp⟩ := Dict.get?_of_mem_keys m1
  obtain ⟨dims, units, da, e1, e2, e3, e4, -⟩ := k2 _ (Dict.mem_of_get? hp) m2 (by simp)
  have h5 := Dict.get?_of_mem (restore_nodup h) hkv
  rw [e3] at h5
  cases h5
  rw [e4]
  obtain ⟨t1, t2⟩ := ht _ (Dict.mem_of_get? hp) dims e1
  have hwild : "*" ∈ dims → ∀ d ∈ dims, d ≠ "*" → d ∉ wildSpec (requested state inP) := by
    intro hs d hd hne hdw
    obtain ⟨q, hq, h6, h7⟩ := mem_wildSpec.1 hdw
    obtain ⟨ikv, hi, h8, h9⟩ := mem_requested.1 hq
    unfold restoreDataArrays at h
    obtain ⟨wl, hwl, -⟩ := Exc.bind_ok_iff.1 h
    obtain ⟨ds, u, a, n1, n2, n3, n4, n5⟩ := (getWildcard_ok hwf hwl).1.entry ikv hi
    rw [h9] at n1
    cases n1
    rw [h8] at n3
    cases n3
    exact h7 (t2 hs ikv hi _ h9 ((n5 d h6).resolve_left h7) d hd hne)
  unfold outDimsSpec
  rw [List.nodup_flatMap]
  refine ⟨fun d _ => ?_, t1.imp_of_mem ?_⟩
  · split
    · exact nodup_wildSpec _
    · exact List.nodup_singleton _
  · intro a b ha hb hab
    show List.Disjoint _ _
    intro y h1 h2
    dsimp only at h1 h2
    by_cases h3 : a = "*"
    · rw [if_pos h3] at h1
      rw [if_neg (fun h => hab (h3.trans h.symm)), List.mem_singleton] at h2
      exact hwild (h3 ▸ ha) b hb (fun h => hab (h3.trans h.symm)) (h2 ▸ h1)
    · rw [if_neg h3, List.mem_singleton] at h1
      by_cases h4 : b = "*"
      · rw [if_pos h4] at h2
        exact hwild (h4 ▸ hb) a ha h3 (h1 ▸ h2)
      · rw [if_neg h4, List.mem_singleton] at h2
        exact hab (h1.symm.trans h2)

omit [Fintype ι] in
/-- Components without tracers and with tidy dims return no tendency with the same axis twice. -/
theorem tidy_dims {σ : Type} (R : Registry) (g : Tracers) {c : Class} {t : Inst} (hp : t.packer = none)
    (hk : c.outProps.keys.Nodup) (ht : TidyDims c.inProps c.outProps)
    (ac : σ → RawState → σ × Except Err (Dict NDArray × Dict NDArray)) (s : σ) (state : State) (hwf : state.WF)
    {r : Dict DataArray × Dict DataArray} (h : (callTendency R g c t ac s state).2 = .ok r) : ∀ kv ∈ r.1, kv.2.dims.Nodup := by
  unfold callTendency at h
  cases hpr : prepare R g c t state with
  | error e => rw [hpr] at h; cases h
  | ok raw =>
    rw [hpr] at h
    obtain ⟨q, _, h⟩ := Exc.bind_ok_iff.1 h
    unfold finishTendency takeTracers at h
    rw [hp] at h
    simp only [Exc.ok_bind] at h
    obtain ⟨_, _, h⟩ := Exc.bind_ok_iff.1 h
    obtain ⟨_, _, h⟩ := Exc.bind_ok_iff.1 h
    obtain ⟨tend, h1, h⟩ := Exc.bind_ok_iff.1 h
    obtain ⟨diag, h2, h⟩ := Exc.bind_ok_iff.1 h
    cases h
    have h3 := restored_tidy hwf hk ht h1
    intro kv hkv
    dsimp only at hkv
    rw [Dict.nil_update (restore_nodup h1)] at hkv
    exact h3 kv hkv

/-- Components of steppers, from what is known of their diagnostics. -/
theorem KeepsMeans.mono {σ : Type} {P W : (ι → DataArray) → DataArray → Prop} {p : Prog σ} (h : KeepsMeans w P p)
    (hW : ∀ v a, P v a → W v a) : KeepsMeans w W p := by
  intro s x z dt hz
  obtain ⟨h1, h2⟩ := h s x z dt hz
  refine ⟨h1, ?_⟩
  rcases h2 with h2 | ⟨T, D, t, d, a1, a2, a3, a4⟩
  · exact .inl h2
  · exact .inr ⟨T, D, t, d, a1, a2, a3, List.Forall₂.imp (fun _ _ hab => ⟨hab.1, hW _ _ hab.2⟩) a4⟩

theorem ArrMean.affine (hw : ∑ i, w i = 1) {v : ι → NDArray} {a : NDArray} (h : ArrMean w v a) (k b : Rat) :
    ArrMean w (fun i => (v i).map fun y => k * y + b) (a.map fun y => k * y + b) := by
  refine ⟨h.shape, fun idx hi => ?_⟩
  show k * a.get idx + b = ∑ i, w i * (k * (v i).get idx + b)
  have : ∀ i, w i * (k * (v i).get idx + b) = k * (w i * (v i).get idx) + w i * b := fun i => by ring
  rw [Finset.sum_congr rfl fun i _ => this i, Finset.sum_add_distrib, ← Finset.mul_sum, ← Finset.sum_mul, hw, one_mul,
    h.val idx hi]

end states

namespace Demo

/-- Relaxation to 300 K; the square of `h` as a diagnostic. -/
def acRelax : Nat → RawState → Nat × Except Err (Dict NDArray × Dict NDArray) := fun n raw =>
  (n + 1, raw.arrays.get "temp" >>= fun t => raw.arrays.get "h" >>= fun h =>
    .ok ([("temp", t.map fun x => -1 / 10 * x + 30)], [("h2", h.map fun x => x * x)]))

theorem duoWeights_sum : ∑ i, duoWeights i = 1 := by
  rw [Fintype.sum_bool]; show (1 : Rat) / 4 + 3 / 4 = 1; norm_num

theorem acRelax_means : ArraysKeepMeans duoWeights (ArrMean duoWeights) SameShape acRelax := by
  intro s raws raw h
  refine ⟨fun _ => rfl, ?_⟩
  refine (h.arrays.get "temp").bind fun v a hv => (h.arrays.get "h").bind fun u b hu => ?_
  exact .ok ⟨DictMean.nil.set "temp" (hv.affine duoWeights_sum _ _), DictMean.nil.set (Q := SameShape) "h2" fun i => hu.shape i⟩

theorem cls_tidy : TidyDims cls.inProps cls.outProps := by
  intro kv hkv dims hd
  simp only [cls, List.mem_singleton] at hkv
  subst hkv
  cases (show some ["z", "*"] = some dims from hd)
  refine ⟨by decide, fun _ q hq ds hds hs d hd hne => ?_⟩
  simp only [cls, List.mem_cons, List.not_mem_nil, or_false] at hq
  rcases hq with rfl | rfl
  · cases hds; exact hd
  · cases hds; simp at hs

def duoFull : EState (Bool → DataArray) := duo ++ [("h", .da fun _ => prof)]
def duoFullMean : State := duoMean ++ [("h", .da prof)]

theorem duoFull_mean : MeanState duoWeights duoFull duoFullMean := by
  refine List.rel_append duo_mean (.cons ⟨rfl, ?_, fun _ => rfl, fun _ => rfl, fun _ => rfl, fun ix _ => ?_⟩ .nil)
  · exact ⟨rfl, by decide⟩
  · rw [← Finset.sum_mul, duoWeights_sum, one_mul]

/-- C121: a class with a wildcard, an alias and a diagnostic that is not affine, and its run. -/
example : MeanState duoWeights duoFull duoFullMean ∧
    KeepsMeans duoWeights (ArrayRel SameShape) (fun s state _ => callTendency reg {} cls plainInst acRelax s state) ∧
    (let run := fun st => match runSteps (tsCall reg warmProps warmProps "S" false
        (abCall reg fun s state _ => callTendency reg {} cls plainInst acRelax s state)) 1000000 2 { order := 2 } 0 st with
      | some r => match Dict.get? r.2.2 "T" with | some (.da a) => some (a.arr.get [1, 2, 1]) | _ => none
      | none => none
     (match run (memberState false duoFull), run (memberState true duoFull), run duoFullMean with
      | some x, some y, some z => decide (z = 3 / 4 * x + 1 / 4 * y ∧ x ≠ y)
      | _, _, _ => false) = true) := by
  refine ⟨duoFull_mean, ?_, ?_⟩
  · exact class_means reg duoWeights_sum {} cls plainInst (ac := fun _ => acRelax) sameShape_reindexes (fun _ _ h => h.shape)
      (fun _ => acRelax_means) fun _ s state r hwf h => tidy_dims reg {} rfl (by decide) cls_tidy acRelax s state hwf h
  · decide +kernel

end Demo

end Verif

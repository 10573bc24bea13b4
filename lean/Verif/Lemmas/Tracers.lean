import Verif.Model.Tracers
import Verif.Lemmas.Restore
/-! Helper lemmas for `Verif/Model/Tracers.lean`. -/

namespace Verif

/-- Inserting an entry at the position of the only `x` of a list. -/
theorem insertIdx_map_erase {l : List String} {x : String} (hc : l.count x = 1) (f : String → Nat)
    (i : Nat) : ((l.erase x).map f).insertIdx (l.idxOf x) i =
      l.map (fun d => if d = x then i else f d) := by
  induction l with
  | nil => simp at hc
  | cons a l ih =>
    by_cases h : a = x
    · subst h
      have h0 : a ∉ l := by
        rw [List.count_cons_self] at hc
        exact List.count_eq_zero.1 (by omega)
      simp only [List.erase_cons_head, List.idxOf_cons_self, List.insertIdx_zero, List.map_cons,
        if_true]
      congr 1
      apply List.map_congr_left
      intro d hd
      rw [if_neg]; rintro rfl; exact h0 hd
    · have hb : (a == x) = false := by simpa using h
      rw [List.count_cons_of_ne h] at hc
      rw [List.erase_cons_tail (by simpa using h), List.idxOf_cons_ne _ h, List.map_cons,
        List.map_cons, List.insertIdx_succ_cons, ih hc, if_neg h]

theorem eraseIdx_map {l : List String} {x : String} (hc : l.count x = 1) (f g : String → Nat)
    (hfg : ∀ d ∈ l, d ≠ x → f d = g d) : (l.map f).eraseIdx (l.idxOf x) = (l.erase x).map g := by
  induction l with
  | nil => simp at hc
  | cons a l ih =>
    by_cases h : a = x
    · subst h
      have h0 : a ∉ l := by
        rw [List.count_cons_self] at hc
        exact List.count_eq_zero.1 (by omega)
      simp only [List.erase_cons_head, List.idxOf_cons_self, List.map_cons, List.eraseIdx_zero,
        List.tail_cons]
      apply List.map_congr_left
      intro d hd
      exact hfg d (List.mem_cons_of_mem _ hd) (by rintro rfl; exact h0 hd)
    · rw [List.count_cons_of_ne h] at hc
      rw [List.erase_cons_tail (by simpa using h), List.idxOf_cons_ne _ h, List.map_cons,
        List.map_cons, List.eraseIdx_cons_succ,
        ih hc (fun d hd => hfg d (List.mem_cons_of_mem _ hd)),
        hfg a List.mem_cons_self h]

theorem getElem?_map_idxOf {l : List String} {x : String} (hx : x ∈ l) (f : String → Nat) :
    (l.map f)[l.idxOf x]? = some (f x) := by
  have hlt : l.idxOf x < l.length := List.idxOf_lt_length_iff.2 hx
  rw [List.getElem?_map, List.getElem?_eq_getElem hlt]
  simp

theorem quantityDims_ok {dims : List String} (h : "tracer" ∈ dims) :
    quantityDims dims = .ok (dims.erase "tracer") := by simp [quantityDims, h]

theorem not_mem_erase_of_count {l : List String} {x : String} (hc : l.count x = 1) :
    x ∉ l.erase x := by
  rw [← List.count_eq_zero, List.count_erase_self]; omega

/-- the units a tracer is packed in: prepended ones override registered ones -/
theorem tracerProps_get? (g : Tracers) (prepend : List (String × String)) (dims : List String)
    (hg : g.units.keys.Nodup) (hp : (prepend.map (·.1)).Nodup) (n : String) :
    (tracerProps g prepend dims).get? n =
      ((Dict.get? prepend n).or (g.units.get? n)).map fun u =>
        ({ dims := some (dims.erase "tracer"), units := some u } : QProps) := by
  unfold tracerProps
  rw [Dict.get?_mapVal]
  have h1 : ∀ q, (Dict.update [] prepend).get? q = Dict.get? prepend q := fun q => by
    rw [Dict.get?_update _ _ hp]; simp
  have h2 : (Dict.update ([] : Dict String) prepend).keys.Nodup :=
    Dict.nodup_keys_update (by simp) _
  rw [Dict.get?_update _ _ h2, h1, Dict.get?_update _ _ hg]
  simp

theorem tracerProps_nodup (g : Tracers) (prepend : List (String × String)) (dims : List String) :
    (tracerProps g prepend dims).keys.Nodup := by
  unfold tracerProps
  rw [Dict.keys_mapVal]
  exact Dict.nodup_keys_update (Dict.nodup_keys_update (by simp) _) _

theorem tracerProps_mem {g : Tracers} {prepend : List (String × String)} {dims : List String}
    {kv : String × QProps} (h : kv ∈ tracerProps g prepend dims) :
    ∃ u, kv.2 = { dims := some (dims.erase "tracer"), units := some u } := by
  unfold tracerProps at h
  obtain ⟨nu, _, rfl⟩ := List.mem_map.1 h
  exact ⟨nu.2, rfl⟩

theorem tracerProps_outName {g : Tracers} {prepend : List (String × String)} {dims : List String} :
    (tracerProps g prepend dims).map outName = (tracerProps g prepend dims).keys := by
  apply List.map_congr_left
  intro kv hkv
  obtain ⟨u, hu⟩ := tracerProps_mem hkv
  simp [outName, hu]

theorem mem_keys_tracerProps {g : Tracers} {prepend : List (String × String)} {dims : List String}
    {n : String} : n ∈ (tracerProps g prepend dims).keys ↔
      n ∈ prepend.map (·.1) ∨ n ∈ g.units.keys := by
  unfold tracerProps
  rw [Dict.keys_mapVal, Dict.mem_keys_update, Dict.mem_keys_update, Dict.mem_keys_update]
  simp [Dict.keys, or_comm]

theorem addNew_spec (acc l : List String) :
    addNew acc l = acc ++ (l.filter (fun n => n ∉ acc)).eraseDups := by
  induction l generalizing acc with
  | nil => simp [addNew]
  | cons n l ih =>
    unfold addNew
    by_cases h : n ∈ acc
    · rw [if_pos h, ih]; simp [h]
    · rw [if_neg h, ih]
      simp only [List.filter_cons, h, not_false_eq_true, decide_true, if_true, List.eraseDups_cons,
        List.append_assoc, List.singleton_append, List.filter_filter]
      congr 3
      apply List.filter_congr
      intro x _
      simp [List.mem_append, and_comm, not_or]
      by_cases hx : x = n <;> simp [hx, h]

theorem broadcastTo_self_ok (a : NDArray) :
    ∃ b, a.broadcastTo a.shape = .ok b ∧ b.shape = a.shape ∧
      ∀ idx, InB idx a.shape → b.get idx = a.get idx := by
  have h1 : ∀ s : List Nat, NDArray.broadcastable s s = true := by
    intro s; induction s with
    | nil => rfl
    | cons x s ih => simp [NDArray.broadcastable, ih]
  have h2 : ∀ (s i : List Nat), InB i s → NDArray.broadcastIdx s i = i := by
    intro s; induction s with
    | nil => intro i hi; cases i with
      | nil => rfl
      | cons a i => exact hi.elim
    | cons x s ih =>
      intro i hi
      cases i with
      | nil => exact hi.elim
      | cons a i =>
        unfold NDArray.broadcastIdx
        rw [ih i hi.2]
        split
        · rename_i hx; subst hx; have := hi.1; congr 1; omega
        · rfl
  refine ⟨⟨a.shape, fun idx => a.get (NDArray.broadcastIdx a.shape idx)⟩,
    by unfold NDArray.broadcastTo; rw [if_pos (h1 _)], rfl, ?_⟩
  intro idx hi
  show a.get (NDArray.broadcastIdx a.shape idx) = _
  rw [h2 _ _ hi]

theorem readSlices_ok {arr : NDArray} {k m : Nat} (hm : arr.shape[k]? = some m) :
    ∀ {l : List String} {i : Nat} {raw0 : Dict NDArray}, i + l.length ≤ m → l.Nodup →
    ∃ raw, readSlices arr k l i raw0 = .ok raw ∧
      (∀ j n, l[j]? = some n → raw.get? n = some (arr.slice k (i + j))) ∧
      (∀ n, n ∉ l → raw.get? n = raw0.get? n) := by
  intro l
  induction l with
  | nil => intro i raw0 _ _; exact ⟨raw0, rfl, by simp, by simp⟩
  | cons n l ih =>
    intro i raw0 hi hnd
    rw [List.nodup_cons] at hnd
    have hi' : i + 1 + l.length ≤ m := by simp at hi; omega
    obtain ⟨raw, h1, h2, h3⟩ := ih (i := i + 1) (raw0 := raw0.set n (arr.slice k i)) hi' hnd.2
    refine ⟨raw, ?_, ?_, ?_⟩
    · unfold readSlices readSlice
      rw [hm]
      simp only
      rw [if_pos (by simp at hi; omega), Exc.ok_bind]
      exact h1
    · intro j x hx
      cases j with
      | zero =>
        simp at hx; subst hx
        rw [h3 _ hnd.1]; simp
      | succ j =>
        simp at hx
        rw [h2 j x hx]; congr 2; omega
    · intro x hx
      rw [List.mem_cons, not_or] at hx
      rw [h3 x hx.2, Dict.get?_set_ne _ _ (Ne.symm hx.1)]

theorem learnRawLens_origin {ds : List String} {ns : List Nat} {lens lens' : Dict Nat}
    (h : learnRawLens ds ns lens = .ok lens') :
    ∀ d m, lens'.get? d = some m → lens.get? d = some m ∨ (d, m) ∈ ds.zip ns := by
  induction ds generalizing ns lens with
  | nil => cases h; intro d m hm; exact Or.inl hm
  | cons x ds ih =>
    cases ns with
    | nil => cases h
    | cons n ns =>
      unfold learnRawLens at h
      split at h
      · split at h
        · cases h
        · intro d m hm
          rcases ih h d m hm with h1 | h1
          · exact Or.inl h1
          · exact Or.inr (List.mem_cons_of_mem _ h1)
      · intro d m hm
        rcases ih h d m hm with h1 | h1
        · rw [Dict.get?_set] at h1
          split at h1
          · rename_i he; subst he; cases h1; exact Or.inr List.mem_cons_self
          · exact Or.inl h1
        · exact Or.inr (List.mem_cons_of_mem _ h1)

theorem rawDimLens_origin {raw : Dict NDArray} {props : PropDict} {lens lens' : Dict Nat}
    (h : rawDimLens raw props lens = .ok lens') :
    ∀ d m, lens'.get? d = some m → lens.get? d = some m ∨
      ∃ kv ∈ props, kv.2.tracer = false ∧ ∃ dims a, kv.2.dims = some dims ∧
        raw.get? (outName kv) = some a ∧ (d, m) ∈ dims.zip a.shape := by
  induction props generalizing lens with
  | nil => cases h; intro d m hm; exact Or.inl hm
  | cons kv props ih =>
    obtain ⟨name, q⟩ := kv
    unfold rawDimLens at h
    split at h
    · intro d m hm
      rcases ih h d m hm with h1 | ⟨kv, h1, h2⟩
      · exact Or.inl h1
      · exact Or.inr ⟨kv, List.mem_cons_of_mem _ h1, h2⟩
    · rename_i htr
      split at h
      · cases h
      · rename_i dims hd
        obtain ⟨a, h1, h2⟩ := Exc.bind_ok_iff.1 h
        obtain ⟨l1, h3, h4⟩ := Exc.bind_ok_iff.1 h2
        intro d m hm
        rcases ih h4 d m hm with k1 | ⟨kv, k1, k2⟩
        · rcases learnRawLens_origin h3 d m k1 with k2 | k2
          · exact Or.inl k2
          · exact Or.inr ⟨(name, q), List.mem_cons_self, by simpa using htr, dims, a, hd,
              Dict.get_eq_ok.1 h1, k2⟩
        · exact Or.inr ⟨kv, List.mem_cons_of_mem _ k1, k2⟩

end Verif

import Verif.Spec.NetCDF
import Verif.Lemmas.Lists
import Verif.Lemmas.ComponentCalls
import Mathlib.Tactic.Linarith
import Mathlib.Tactic.FieldSimp
import Mathlib.Data.Rat.Lemmas
/-!
# Lemmas about NetCDFMonitor
-/

namespace Verif

/-! ## The cache -/

/-- The cached state of a time. -/
def cacheGet : NCCache → Int → Option State
  | [], _ => none
  | (t', s) :: rest, t => if t' = t then some s else cacheGet rest t

theorem cacheGet_none {c : NCCache} {t : Int} : cacheGet c t = none ↔ t ∉ c.map (·.1) := by
  induction c with
  | nil => simp [cacheGet]
  | cons x c ih =>
    obtain ⟨t', s⟩ := x
    unfold cacheGet
    by_cases h : t' = t
    · simp [h]
    · rw [if_neg h, ih]
      simp [Ne.symm h]

theorem cacheGet_mem {c : NCCache} {t : Int} {s : State} (h : cacheGet c t = some s) : (t, s) ∈ c := by
  induction c with
  | nil => cases h
  | cons x c ih =>
    obtain ⟨t', s'⟩ := x
    unfold cacheGet at h
    split at h
    · rename_i ht
      injection h with h
      subst h ht
      exact List.mem_cons_self
    · exact List.mem_cons_of_mem _ (ih h)

theorem cacheGet_of_mem {c : NCCache} {t : Int} {s : State} (hn : (c.map (·.1)).Nodup) (h : (t, s) ∈ c) :
    cacheGet c t = some s := by
  induction c with
  | nil => cases h
  | cons x c ih =>
    obtain ⟨t', s'⟩ := x
    rw [List.map_cons, List.nodup_cons] at hn
    unfold cacheGet
    rcases List.mem_cons.1 h with h | h
    · injection h with h1 h2
      subst h1 h2
      rw [if_pos rfl]
    · rw [if_neg, ih hn.2 h]
      rintro rfl
      exact hn.1 (List.mem_map.2 ⟨_, h, rfl⟩)

theorem cacheGet_add (c : NCCache) (t : Int) (s : State) (t' : Int) :
    cacheGet (ncCacheAdd c t s) t' =
      if t' = t then some ((cacheGet c t).elim s (fun s0 => Dict.update s0 s)) else cacheGet c t' := by
  induction c with
  | nil =>
    unfold ncCacheAdd cacheGet
    by_cases h : t' = t
    · simp [h]
    · rw [if_neg (Ne.symm h), if_neg h]
      rfl
  | cons x c ih =>
    obtain ⟨t0, s0⟩ := x
    unfold ncCacheAdd
    by_cases h0 : t0 = t
    · rw [if_pos h0]
      subst h0
      by_cases h : t' = t0
      · subst h
        simp [cacheGet]
      · simp [cacheGet, h, Ne.symm h]
    · rw [if_neg h0]
      unfold cacheGet
      rw [if_neg h0]
      by_cases h : t0 = t'
      · subst h
        rw [if_pos rfl, if_neg h0, if_pos rfl]
      · rw [if_neg h, ih, if_neg h]

theorem times_add (c : NCCache) (t : Int) (s : State) :
    (ncCacheAdd c t s).map (·.1) = if t ∈ c.map (·.1) then c.map (·.1) else c.map (·.1) ++ [t] := by
  induction c with
  | nil => simp [ncCacheAdd]
  | cons x c ih =>
    obtain ⟨t0, s0⟩ := x
    unfold ncCacheAdd
    by_cases h0 : t0 = t
    · rw [if_pos h0]
      simp [h0]
    · rw [if_neg h0, List.map_cons, ih, List.map_cons]
      by_cases h : t ∈ c.map (·.1)
      · rw [if_pos h, if_pos (List.mem_cons_of_mem _ h)]
      · rw [if_neg h, if_neg]
        · rfl
        · intro h'
          rcases List.mem_cons.1 h' with h' | h'
          · exact h0 h'.symm
          · exact h h'

theorem lastStored_append (ps : List (Int × State)) (p : Int × State) (t : Int) (q : String) :
    lastStored (ps ++ [p]) t q = (if p.1 = t then Dict.get? p.2 q else none).or (lastStored ps t q) := by
  induction ps with
  | nil =>
    obtain ⟨t', s⟩ := p
    simp [lastStored]
  | cons x ps ih =>
    obtain ⟨t', s⟩ := x
    rw [List.cons_append]
    unfold lastStored
    rw [ih, Option.or_assoc]

/-- The cache represents the stores. -/
structure CacheOf (c : NCCache) (ps : List (Int × State)) : Prop where
  nodup : (c.map (·.1)).Nodup
  times : ∀ t, t ∈ c.map (·.1) ↔ ∃ p ∈ ps, p.1 = t
  vals : ∀ t q, (cacheGet c t).bind (fun s => Dict.get? s q) = lastStored ps t q
  keys : ∀ t s, (t, s) ∈ c → (Dict.keys s).Nodup

theorem cacheOf_nil : CacheOf [] [] :=
  ⟨List.nodup_nil, fun t => by simp, fun t q => rfl, fun t s h => by cases h⟩

theorem cacheOf_add {c : NCCache} {ps : List (Int × State)} (h : CacheOf c ps) (t : Int) (s : State)
    (hs : (Dict.keys s).Nodup) : CacheOf (ncCacheAdd c t s) (ps ++ [(t, s)]) := by
  have hnd : ((ncCacheAdd c t s).map (·.1)).Nodup := by
    rw [times_add]
    split
    · exact h.nodup
    · rename_i ht
      rw [List.nodup_append]
      refine ⟨h.nodup, by simp, ?_⟩
      intro a ha b hb hab
      rw [List.mem_singleton] at hb
      subst hab hb
      exact ht ha
  refine ⟨hnd, ?_, ?_, ?_⟩
  · intro t'
    rw [times_add]
    have := h.times t'
    split
    · rename_i ht
      rw [this]
      constructor
      · rintro ⟨p, hp, e⟩
        exact ⟨p, List.mem_append_left _ hp, e⟩
      · rintro ⟨p, hp, e⟩
        rcases List.mem_append.1 hp with hp | hp
        · exact ⟨p, hp, e⟩
        · rw [List.mem_singleton] at hp
          subst hp
          dsimp only at e
          subst e
          exact this.1 ht
    · rw [List.mem_append, this, List.mem_singleton]
      constructor
      · rintro (⟨p, hp, e⟩ | rfl)
        · exact ⟨p, List.mem_append_left _ hp, e⟩
        · exact ⟨(t', s), by simp, rfl⟩
      · rintro ⟨p, hp, e⟩
        rcases List.mem_append.1 hp with hp | hp
        · exact .inl ⟨p, hp, e⟩
        · rw [List.mem_singleton] at hp
          subst hp
          exact .inr e.symm
  · intro t' q
    rw [cacheGet_add, lastStored_append, ← h.vals]
    by_cases ht : t' = t
    · subst ht
      rw [if_pos rfl, if_pos rfl]
      cases hc : cacheGet c t' with
      | none => simp
      | some s0 =>
        show Dict.get? (Dict.update s0 s) q = _
        rw [Dict.get?_update _ _ hs]
        rfl
    · rw [if_neg ht, if_neg (Ne.symm ht), Option.none_or]
  · intro t' s' hm
    have hg := cacheGet_of_mem hnd hm
    rw [cacheGet_add] at hg
    split at hg
    · injection hg with hg
      subst hg
      cases hc : cacheGet c t with
      | none => exact hs
      | some s0 => exact Dict.nodup_keys_update (h.keys _ _ (cacheGet_mem hc)) _
    · exact h.keys _ _ (cacheGet_mem hg)

/-! ## Sorting -/

theorem ncInsert_perm (x : Int × State) (l : NCCache) : (ncInsert x l).Perm (x :: l) := by
  induction l with
  | nil => exact List.Perm.refl _
  | cons y l ih =>
    unfold ncInsert
    split
    · exact List.Perm.refl _
    · exact (ih.cons y).trans (List.Perm.swap _ _ _)

theorem ncSort_perm (l : NCCache) : (ncSort l).Perm l := by
  induction l with
  | nil => exact List.Perm.refl _
  | cons x l ih => exact (ncInsert_perm x _).trans (ih.cons x)

theorem ncInsert_sorted (x : Int × State) {l : NCCache} (h : l.Pairwise (fun a b => a.1 ≤ b.1)) :
    (ncInsert x l).Pairwise (fun a b => a.1 ≤ b.1) := by
  induction l with
  | nil => exact List.pairwise_singleton _ _
  | cons y l ih =>
    rw [List.pairwise_cons] at h
    unfold ncInsert
    split
    · rename_i hxy
      rw [List.pairwise_cons]
      refine ⟨?_, List.pairwise_cons.2 h⟩
      intro z hz
      rcases List.mem_cons.1 hz with rfl | hz
      · exact Int.le_of_lt hxy
      · exact Int.le_trans (Int.le_of_lt hxy) (h.1 z hz)
    · rename_i hxy
      rw [List.pairwise_cons]
      refine ⟨?_, ih h.2⟩
      intro z hz
      rcases List.mem_cons.1 ((ncInsert_perm x l).mem_iff.1 hz) with rfl | hz
      · exact Int.not_lt.1 hxy
      · exact h.1 z hz

theorem ncSort_sorted (l : NCCache) : (ncSort l).Pairwise (fun a b => a.1 ≤ b.1) := by
  induction l with
  | nil => exact List.Pairwise.nil
  | cons x l ih => exact ncInsert_sorted x ih

theorem ncSort_increasing {l : NCCache} (h : (l.map (·.1)).Nodup) : ((ncSort l).map (·.1)).Pairwise (· < ·) := by
  have hn : ((ncSort l).map (·.1)).Nodup := ((ncSort_perm l).map _).nodup_iff.2 h
  have hs := ncSort_sorted l
  rw [List.Nodup, List.pairwise_map] at hn
  rw [List.pairwise_map]
  exact hs.imp₂ (fun a b h1 h2 => lt_of_le_of_ne h1 h2) hn

theorem ncSort_nil {l : NCCache} : ncSort l = [] ↔ l = [] := by
  constructor
  · intro h
    have := ncSort_perm l
    rw [h] at this
    exact this.symm.eq_nil
  · rintro rfl
    rfl

/-! ## The check of the keys -/

theorem sameList_iff {a b : List String} (ha : a.Nodup) (hb : b.Nodup) : sameList a b = true ↔ ∀ x, x ∈ a ↔ x ∈ b := by
  unfold sameList
  simp only [Bool.and_eq_true, decide_eq_true_eq, List.all_eq_true, List.contains_iff_mem]
  constructor
  · rintro ⟨⟨-, h1⟩, h2⟩ x
    exact ⟨h1 x, h2 x⟩
  · intro h
    exact ⟨⟨((List.perm_ext_iff_of_nodup ha hb).2 h).length_eq, fun x => (h x).1⟩, fun x => (h x).2⟩

/-- What the check of the keys means. -/
theorem ncCheckKeys_iff {c : NCCache} {f : NCFile} (hc : ∀ t s, (t, s) ∈ c → (Dict.keys s).Nodup)
    (hf : (Dict.keys f.vars).Nodup) :
    (ncCheckKeys c f = .ok () ↔
      (∀ t s t' s', (t, s) ∈ c → (t', s') ∈ c → ∀ q, q ∈ Dict.keys s ↔ q ∈ Dict.keys s') ∧
      (f.vars ≠ [] → ∀ t s, (t, s) ∈ c → ∀ q, q ∈ Dict.keys s ↔ q ∈ Dict.keys f.vars)) ∧
    (∀ e, ncCheckKeys c f = .error e → e = .invalidState) := by
  unfold ncCheckKeys
  cases c with
  | nil =>
    unfold ncSameKeys
    refine ⟨⟨fun _ => ⟨?_, ?_⟩, fun _ => rfl⟩, fun e h => by cases h⟩
    · intro t s t' s' h
      cases h
    · intro _ t s h
      cases h
  | cons x c =>
    obtain ⟨t0, s0⟩ := x
    unfold ncSameKeys
    dsimp only
    by_cases hv : f.vars = []
    · have hlen : ¬ (Dict.keys f.vars).length > 0 := by rw [hv]; simp [Dict.keys]
      rw [if_neg hlen]
      constructor
      · constructor
        · intro h
          split at h
          · rename_i hall
            rw [List.all_eq_true] at hall
            have key : ∀ t s, (t, s) ∈ (t0, s0) :: c → ∀ q, q ∈ Dict.keys s ↔ q ∈ Dict.keys s0 := by
              intro t s hm
              exact (sameList_iff (hc t s hm) (hc t0 s0 List.mem_cons_self)).1 (hall _ hm)
            exact ⟨fun t s t' s' h1 h2 q => (key t s h1 q).trans (key t' s' h2 q).symm, fun h => absurd hv h⟩
          · cases h
        · rintro ⟨h, -⟩
          rw [if_pos]
          rw [List.all_eq_true]
          rintro ⟨t, s⟩ hm
          exact (sameList_iff (hc t s hm) (hc t0 s0 List.mem_cons_self)).2 (h t s t0 s0 hm List.mem_cons_self)
      · intro e h
        split at h
        · cases h
        · injection h with h
          exact h.symm
    · have hlen : (Dict.keys f.vars).length > 0 := by
        cases hf' : f.vars with
        | nil => exact absurd hf' hv
        | cons y l => simp [Dict.keys]
      rw [if_pos hlen]
      constructor
      · constructor
        · intro h
          split at h
          · rename_i hall
            rw [List.all_eq_true] at hall
            have key : ∀ t s, (t, s) ∈ (t0, s0) :: c → ∀ q, q ∈ Dict.keys s ↔ q ∈ Dict.keys f.vars := by
              intro t s hm
              exact (sameList_iff (hc t s hm) hf).1 (hall _ hm)
            exact ⟨fun t s t' s' h1 h2 q => (key t s h1 q).trans (key t' s' h2 q).symm, fun _ => key⟩
          · cases h
        · rintro ⟨-, h⟩
          rw [if_pos]
          rw [List.all_eq_true]
          rintro ⟨t, s⟩ hm
          exact (sameList_iff (hc t s hm) hf).2 (h hv t s hm)
      · intro e h
        split at h
        · cases h
        · injection h with h
          exact h.symm

/-! ## combine_states -/

theorem assignTo_same {v : NDArray} {shape : List Nat} (h : v.shape = shape) : assignTo v shape = .ok v := by
  unfold assignTo
  rw [if_pos h]

theorem stackHeader_ok {first : State} {h : Dict DataArray} (hh : stackHeader first = .ok h) :
    Dict.keys h = Dict.keys first ∧ ∀ n, Dict.get? first n = (Dict.get? h n).map Val.da := by
  unfold stackHeader at hh
  induction first generalizing h with
  | nil =>
    cases hh
    exact ⟨rfl, fun n => rfl⟩
  | cons x first ih =>
    obtain ⟨n, v⟩ := x
    rw [List.mapM_cons] at hh
    obtain ⟨y, hy, hh⟩ := Exc.bind_ok_iff.1 hh
    obtain ⟨h', hh', hh⟩ := Exc.bind_ok_iff.1 hh
    obtain ⟨i1, i2⟩ := ih hh'
    injection hh with hh
    subst hh
    cases v with
    | time t => cases hy
    | da a =>
      injection hy with hy
      subst hy
      refine ⟨by simp only [Dict.keys, List.map_cons] at i1 ⊢; rw [i1], fun q => ?_⟩
      rw [Dict.get?_cons, Dict.get?_cons]
      split
      · rfl
      · exact i2 q

theorem stackRows_ok {header : Dict DataArray} {s : State} {r : Dict NDArray}
    (h : s.mapM (stackRow header) = .ok r) :
    (∀ n v, Dict.get? s n = some v → ∃ a hd rr, v = .da a ∧ Dict.get? header n = some hd ∧ a.arr.shape.length ≠ 0 ∧
      hd.arr.shape.length ≠ 0 ∧ assignTo a.arr hd.arr.shape = .ok rr ∧ Dict.get? r n = some rr) := by
  induction s generalizing r with
  | nil => intro n v hv; cases hv
  | cons x s ih =>
    obtain ⟨n, v⟩ := x
    rw [List.mapM_cons] at h
    obtain ⟨y, hy, h⟩ := Exc.bind_ok_iff.1 h
    obtain ⟨r', hr', h⟩ := Exc.bind_ok_iff.1 h
    injection h with h
    subst h
    unfold stackRow at hy
    cases v with
    | time t => cases hy
    | da a =>
      dsimp only at hy
      split at hy
      · cases hy
      · rename_i ha
        obtain ⟨hd, hhd, hy⟩ := Exc.bind_ok_iff.1 hy
        split at hy
        · cases hy
        · rename_i hh
          obtain ⟨rr, hrr, hy⟩ := Exc.bind_ok_iff.1 hy
          injection hy with hy
          subst hy
          intro q w hq
          rw [Dict.get?_cons] at hq
          split at hq
          · rename_i e
            injection hq with hq
            subst hq e
            exact ⟨a, hd, rr, rfl, Dict.get_eq_ok.1 hhd, ha, hh, hrr, by rw [Dict.get?_cons, if_pos rfl]⟩
          · rename_i e
            obtain ⟨a', hd', rr', h1, h2, h3, h4, h5, h6⟩ := ih hr' q w hq
            exact ⟨a', hd', rr', h1, h2, h3, h4, h5, by rw [Dict.get?_cons, if_neg e]; exact h6⟩

theorem get?_map_key {α β : Type} (F : String → α → β) (d : Dict α) (n : String) :
    Dict.get? (d.map fun nh => (nh.1, F nh.1 nh.2)) n = (Dict.get? d n).map (F n) := by
  induction d with
  | nil => rfl
  | cons x d ih =>
    obtain ⟨k, v⟩ := x
    rw [List.map_cons, Dict.get?_cons, Dict.get?_cons]
    split
    · rename_i h
      rw [h]
      rfl
    · exact ih

/-- A successful `combine_states`, for states with the same keys and quantities of the
same shape. -/
theorem combineStates_ok {states : List State} {stk : Dict NCStack} (h : combineStates states = .ok stk)
    (hn : ∀ s ∈ states, (Dict.keys s).Nodup)
    (hk : ∀ s ∈ states, ∀ s' ∈ states, ∀ q, q ∈ Dict.keys s ↔ q ∈ Dict.keys s') :
    (Dict.keys stk).Nodup ∧ (∀ s ∈ states, ∀ q, q ∈ Dict.keys stk ↔ q ∈ Dict.keys s) ∧
    (∀ s ∈ states, ∀ q v, Dict.get? s q = some v → ∃ a, v = .da a ∧ a.arr.shape.length ≠ 0) ∧
    ∀ q st, Dict.get? stk q = some st → ∃ hd, (∃ s ∈ states, Dict.get? s q = some (.da hd)) ∧
      st.dims = hd.dims ∧ st.shape = hd.arr.shape ∧ st.attrs = hd.attrs ∧ st.rows.length = states.length ∧
      ∀ (j : Nat) (s : State), states[j]? = some s → ∀ a, Dict.get? s q = some (.da a) → a.arr.shape = hd.arr.shape →
        st.rows[j]? = some a.arr := by
  unfold combineStates at h
  cases states with
  | nil => cases h
  | cons first rest =>
    dsimp only at h
    obtain ⟨header, hh, h⟩ := Exc.bind_ok_iff.1 h
    obtain ⟨rows, hr, h⟩ := Exc.bind_ok_iff.1 h
    injection h with h
    obtain ⟨k1, k2⟩ := stackHeader_ok hh
    have hget : ∀ q, Dict.get? stk q = (Dict.get? header q).map fun hd =>
        { dims := hd.dims, shape := hd.arr.shape, attrs := hd.attrs,
          rows := rows.map fun r => (Dict.get? r q).getD (NDArray.zeros hd.arr.shape) } := by
      intro q
      rw [← h]
      exact get?_map_key (fun n (hd : DataArray) => (⟨hd.dims, hd.arr.shape, hd.attrs,
        rows.map fun r => (Dict.get? r n).getD (NDArray.zeros hd.arr.shape)⟩ : NCStack)) header q
    have hkeys : Dict.keys stk = Dict.keys first := by
      rw [← h, ← k1]
      simp [Dict.keys, List.map_map, Function.comp_def]
    refine ⟨by rw [hkeys]; exact hn _ List.mem_cons_self, ?_, ?_, ?_⟩
    · intro s hs q
      rw [hkeys]
      exact hk _ List.mem_cons_self _ hs q
    · intro s hs q v hq
      obtain ⟨r, -, hrow⟩ := mapM_ok_mem_left hr hs
      obtain ⟨a, hd, rr, h1, h2, h3, h4, h5, h6⟩ := stackRows_ok hrow q v hq
      exact ⟨a, h1, h3⟩
    · intro q st hst
      rw [hget] at hst
      cases hhd : Dict.get? header q with
      | none => rw [hhd] at hst; cases hst
      | some hd =>
        rw [hhd] at hst
        injection hst with hst
        subst hst
        refine ⟨hd, ⟨first, List.mem_cons_self, by rw [k2, hhd]; rfl⟩, rfl, rfl, rfl, ?_, ?_⟩
        · dsimp only
          rw [List.length_map, mapM_length hr]
        · intro j s hj a ha hshape
          obtain ⟨r, hrj, hrow⟩ := mapM_getElem? hr hj
          obtain ⟨a', hd', rr, h1, h2, h3, h4, h5, h6⟩ := stackRows_ok hrow q _ ha
          injection h1 with h1
          subst h1
          rw [hhd] at h2
          injection h2 with h2
          subst h2
          rw [assignTo_same hshape] at h5
          injection h5 with h5
          subst h5
          dsimp only
          rw [List.getElem?_map, hrj]
          show some ((Dict.get? r q).getD _) = _
          rw [h6]
          rfl

/-! ## Changes of the file -/

/-- Nothing in the file before the record `start` is changed. -/
structure FileKeeps (start : Nat) (f f' : NCFile) : Prop where
  ntime : f'.ntime = f.ntime
  times : f'.times = f.times
  timeVar : f'.timeVar = f.timeVar
  dims : ∀ d x, f.dims.get? d = some x → f'.dims.get? d = some x
  vars : ∀ q v, f.vars.get? q = some v → ∃ v', f'.vars.get? q = some v' ∧ v'.dims = v.dims ∧ v'.attrs = v.attrs ∧
    ∀ i < start, v'.rows i = v.rows i

theorem FileKeeps.refl (start : Nat) (f : NCFile) : FileKeeps start f f :=
  ⟨rfl, rfl, rfl, fun _ _ h => h, fun _ v h => ⟨v, h, rfl, rfl, fun _ _ => rfl⟩⟩

theorem FileKeeps.trans {start : Nat} {f g h : NCFile} (a : FileKeeps start f g) (b : FileKeeps start g h) :
    FileKeeps start f h := by
  refine ⟨b.ntime.trans a.ntime, b.times.trans a.times, b.timeVar.trans a.timeVar,
    fun d x hd => b.dims d x (a.dims d x hd), ?_⟩
  intro q v hv
  obtain ⟨v1, h1, e1, e2, e3⟩ := a.vars q v hv
  obtain ⟨v2, h2, d1, d2, d3⟩ := b.vars q v1 h1
  exact ⟨v2, h2, d1.trans e1, d2.trans e2, fun i hi => (d3 i hi).trans (e3 i hi)⟩

/-- Length of a dimension in a file. -/
def dimLen (f : NCFile) (d : String) : Nat := ((f.dims.get? d).getD none).getD f.ntime

theorem rowShape_eq (f : NCFile) (dims : List String) : rowShape f dims = dims.map (dimLen f) := rfl

theorem FileKeeps.dimLen {start : Nat} {f g : NCFile} (a : FileKeeps start f g) {d : String}
    (h : d ∈ Dict.keys f.dims) : Verif.dimLen g d = Verif.dimLen f d := by
  obtain ⟨x, hx⟩ := Dict.get?_of_mem_keys h
  unfold Verif.dimLen
  rw [a.dims d x hx, hx, a.ntime]

theorem FileKeeps.mem_dims {start : Nat} {f g : NCFile} (a : FileKeeps start f g) {d : String}
    (h : d ∈ Dict.keys f.dims) : d ∈ Dict.keys g.dims := by
  obtain ⟨x, hx⟩ := Dict.get?_of_mem_keys h
  exact Dict.mem_keys_of_get? (a.dims d x hx)

theorem FileKeeps.rowShape {start : Nat} {f g : NCFile} (a : FileKeeps start f g) {dims : List String}
    (h : ∀ d ∈ dims, d ∈ Dict.keys f.dims) : Verif.rowShape g dims = Verif.rowShape f dims := by
  rw [rowShape_eq, rowShape_eq]
  exact List.map_congr_left fun d hd => a.dimLen (h d hd)

theorem ensureDim_keeps (start : Nat) (f : NCFile) (d : String) (n : Option Nat) :
    FileKeeps start f (ensureDim f d n).1 ∧ (ensureDim f d n).1.vars = f.vars := by
  unfold ensureDim
  cases h : f.dims.get? d with
  | none =>
    refine ⟨⟨rfl, rfl, rfl, ?_, fun _ v h => ⟨v, h, rfl, rfl, fun _ _ => rfl⟩⟩, rfl⟩
    intro d' x hx
    dsimp only
    rw [Dict.get?_set_ne]
    · exact hx
    · rintro rfl
      rw [h] at hx
      cases hx
  | some m =>
    dsimp only
    cases n <;> cases m <;> exact ⟨FileKeeps.refl _ _, rfl⟩

theorem ensureDim_ok {f : NCFile} {d : String} {n : Option Nat} (h : (ensureDim f d n).2 = .ok ()) :
    d ∈ Dict.keys (ensureDim f d n).1.dims ∧ ∀ k, n = some k → dimLen (ensureDim f d n).1 d = k := by
  unfold ensureDim at h ⊢
  cases hd : f.dims.get? d with
  | none =>
    dsimp only
    refine ⟨(Dict.mem_keys_set _ _ _ _).2 (.inl rfl), ?_⟩
    rintro k rfl
    unfold dimLen
    dsimp only
    rw [Dict.get?_set_self]
    rfl
  | some m =>
    rw [hd] at h
    dsimp only at h ⊢
    have hm := Dict.mem_keys_of_get? hd
    cases n with
    | none =>
      cases m with
      | none => exact ⟨hm, fun k hk => by cases hk⟩
      | some m => cases h
    | some n =>
      cases m with
      | none =>
        dsimp only at h ⊢
        split at h
        · rename_i e
          refine ⟨hm, ?_⟩
          rintro k hk
          injection hk with hk
          subst hk
          unfold dimLen
          rw [hd]
          exact e.symm
        · cases h
      | some m =>
        dsimp only at h ⊢
        split at h
        · rename_i e
          refine ⟨hm, ?_⟩
          rintro k hk
          injection hk with hk
          subst hk
          unfold dimLen
          rw [hd]
          exact e.symm
        · cases h

theorem ensureDims_keeps (start : Nat) (l : List (String × Nat)) (f : NCFile) :
    FileKeeps start f (ensureDims f l).1 ∧ (ensureDims f l).1.vars = f.vars := by
  induction l generalizing f with
  | nil => exact ⟨FileKeeps.refl _ _, rfl⟩
  | cons x l ih =>
    obtain ⟨d, n⟩ := x
    have hk := ensureDim_keeps start f d (some n)
    unfold ensureDims
    rcases hr : ensureDim f d (some n) with ⟨f1, r⟩
    rw [hr] at hk
    cases r with
    | error e => exact hk
    | ok u =>
      dsimp only at hk ⊢
      have := ih f1
      exact ⟨hk.1.trans this.1, this.2.trans hk.2⟩

theorem ensureDims_ok {l : List (String × Nat)} {f : NCFile} (h : (ensureDims f l).2 = .ok ()) :
    ∀ d n, (d, n) ∈ l → d ∈ Dict.keys (ensureDims f l).1.dims ∧ dimLen (ensureDims f l).1 d = n := by
  induction l generalizing f with
  | nil => intro d n hm; cases hm
  | cons x l ih =>
    obtain ⟨d, n⟩ := x
    have ho := @ensureDim_ok f d (some n)
    unfold ensureDims at h ⊢
    rcases hr : ensureDim f d (some n) with ⟨f1, r⟩
    rw [hr] at h ho
    cases r with
    | error e => cases h
    | ok u =>
      dsimp only at h ho ⊢
      intro d' n' hm
      rcases List.mem_cons.1 hm with hm | hm
      · injection hm with h1 h2
        subst h1 h2
        obtain ⟨o1, o2⟩ := ho rfl
        have hk := (ensureDims_keeps 0 l f1).1
        exact ⟨hk.mem_dims o1, (hk.dimLen o1).trans (o2 _ rfl)⟩
      · exact ih h d' n' hm

theorem attrsCompatible_ok {a b : Dict String} (h : attrsCompatible a b = .ok ()) {k u : String}
    (hk : Dict.get? b k = some u) : a.get? k = some u := by
  unfold attrsCompatible at h
  split at h
  · rename_i ha
    have := List.all_eq_true.1 ha _ (Dict.mem_of_get? hk)
    simpa using this
  · cases h

theorem ensureVar_keeps (start : Nat) (f : NCFile) (n : String) (s : NCStack) :
    FileKeeps start f (ensureVar f n s).1 ∧ ∀ q, q ≠ n → (ensureVar f n s).1.vars.get? q = f.vars.get? q := by
  unfold ensureVar
  cases hv : f.vars.get? n with
  | some v => exact ⟨FileKeeps.refl _ _, fun _ _ => rfl⟩
  | none =>
    dsimp only
    have hk := ensureDim_keeps start f "time" none
    rcases hr : ensureDim f "time" none with ⟨f1, r⟩
    rw [hr] at hk
    cases r with
    | error e =>
      dsimp only at hk ⊢
      exact ⟨hk.1, fun q _ => by rw [hk.2]⟩
    | ok u =>
      dsimp only at hk ⊢
      have hk2 := ensureDims_keeps start (s.dims.zip s.shape) f1
      rcases hr2 : ensureDims f1 (s.dims.zip s.shape) with ⟨f2, r2⟩
      rw [hr2] at hk2
      cases r2 with
      | error e =>
        dsimp only at hk2 ⊢
        exact ⟨hk.1.trans hk2.1, fun q _ => by rw [hk2.2, hk.2]⟩
      | ok u =>
        dsimp only at hk2 ⊢
        refine ⟨(hk.1.trans hk2.1).trans ⟨rfl, rfl, rfl, fun _ _ h => h, ?_⟩, ?_⟩
        · intro q v hq
          refine ⟨v, ?_, rfl, rfl, fun _ _ => rfl⟩
          dsimp only
          rw [Dict.get?_set_ne]
          · exact hq
          · rintro rfl
            rw [hk2.2, hk.2, hv] at hq
            cases hq
        · intro q hq
          rw [Dict.get?_set_ne _ _ (Ne.symm hq), hk2.2, hk.2]

theorem ensureVar_ok {f : NCFile} {n : String} {s : NCStack} (h : (ensureVar f n s).2 = .ok ()) :
    ∃ v, (ensureVar f n s).1.vars.get? n = some v ∧ v.dims = "time" :: s.dims ∧
      (∀ k u, Dict.get? s.attrs k = some u → v.attrs.get? k = some u) ∧
      (f.vars.get? n = some v ∨
        f.vars.get? n = none ∧ v.attrs = s.attrs ∧ (s.dims.length = s.shape.length →
          (∀ d ∈ s.dims, d ∈ Dict.keys (ensureVar f n s).1.dims) ∧ rowShape (ensureVar f n s).1 s.dims = s.shape)) := by
  unfold ensureVar at h ⊢
  cases hv : f.vars.get? n with
  | some v =>
    rw [hv] at h
    dsimp only at h ⊢
    split at h
    · rename_i hd
      exact ⟨v, hv, hd, fun k u hk => attrsCompatible_ok h hk, .inl rfl⟩
    · cases h
  | none =>
    rw [hv] at h
    dsimp only at h ⊢
    rcases hr : ensureDim f "time" none with ⟨f1, r⟩
    rw [hr] at h
    cases r with
    | error e => cases h
    | ok u =>
      dsimp only at h ⊢
      have ho := @ensureDims_ok (s.dims.zip s.shape) f1
      rcases hr2 : ensureDims f1 (s.dims.zip s.shape) with ⟨f2, r2⟩
      rw [hr2] at h ho
      cases r2 with
      | error e => cases h
      | ok u =>
        dsimp only at h ho ⊢
        refine ⟨_, Dict.get?_set_self _ _ _, rfl, fun _ _ h => h, .inr ⟨rfl, rfl, fun hlen => ?_⟩⟩
        have hz : ∀ d n, (d, n) ∈ s.dims.zip s.shape → _ := ho rfl
        refine ⟨?_, ?_⟩
        · intro d hd
          obtain ⟨i, hi, rfl⟩ := List.mem_iff_getElem.1 hd
          exact (hz _ (s.shape[i]'(by omega)) (List.mem_iff_getElem.2 ⟨i, by simp; omega, by simp⟩)).1
        · rw [rowShape_eq]
          apply List.ext_getElem
          · simpa using hlen
          · intro i h1 h2
            rw [List.getElem_map]
            have hi : i < s.dims.length := by simpa using h1
            exact (hz s.dims[i] s.shape[i] (List.mem_iff_getElem.2 ⟨i, by simp; omega, by simp⟩)).2

theorem writeRows_keeps (start : Nat) (f : NCFile) (n : String) (s : NCStack) :
    FileKeeps start f (writeRows f start n s).1 ∧ (writeRows f start n s).1.dims = f.dims ∧
      ∀ q, q ≠ n → (writeRows f start n s).1.vars.get? q = f.vars.get? q := by
  unfold writeRows
  cases hv : f.vars.get? n with
  | none => exact ⟨FileKeeps.refl _ _, rfl, fun _ _ => rfl⟩
  | some v =>
    dsimp only
    cases hr : s.rows.mapM (fun r => assignTo r (rowShape f v.dims.tail)) with
    | error e => exact ⟨FileKeeps.refl _ _, rfl, fun _ _ => rfl⟩
    | ok rows =>
      dsimp only
      refine ⟨⟨rfl, rfl, rfl, fun _ _ h => h, ?_⟩, rfl, fun q hq => Dict.get?_set_ne _ _ (Ne.symm hq)⟩
      intro q w hq
      by_cases e : q = n
      · subst e
        rw [hv] at hq
        injection hq with hq
        subst hq
        refine ⟨_, Dict.get?_set_self _ _ _, rfl, rfl, fun i hi => ?_⟩
        dsimp only
        rw [if_neg (by omega)]
      · exact ⟨w, by rw [Dict.get?_set_ne _ _ (Ne.symm e)]; exact hq, rfl, rfl, fun _ _ => rfl⟩

theorem writeRows_ok {start : Nat} {f : NCFile} {n : String} {s : NCStack} {v : NCVar} (hv : f.vars.get? n = some v)
    (h : (writeRows f start n s).2 = .ok ()) :
    ∃ v', (writeRows f start n s).1.vars.get? n = some v' ∧ v'.dims = v.dims ∧ v'.attrs = v.attrs ∧
      ∀ j r, s.rows[j]? = some r → r.shape = rowShape f v.dims.tail → v'.rows (start + j) = some r := by
  unfold writeRows at h ⊢
  rw [hv] at h ⊢
  dsimp only at h ⊢
  cases hr : s.rows.mapM (fun r => assignTo r (rowShape f v.dims.tail)) with
  | error e => rw [hr] at h; cases h
  | ok rows =>
    dsimp only
    refine ⟨_, Dict.get?_set_self _ _ _, rfl, rfl, ?_⟩
    intro j r hj hs
    obtain ⟨r', hr', ha⟩ := mapM_getElem? hr hj
    rw [assignTo_same hs] at ha
    injection ha with ha
    subst ha
    have hlt : j < rows.length := (List.getElem?_eq_some_iff.1 hr').1
    dsimp only
    rw [if_pos (by omega), Nat.add_sub_cancel_left]
    exact hr'

theorem writeVars_keeps (start : Nat) (l : Dict NCStack) (f : NCFile) :
    FileKeeps start f (writeVars start l f).1 ∧
      ∀ q, q ∉ Dict.keys l → (writeVars start l f).1.vars.get? q = f.vars.get? q := by
  induction l generalizing f with
  | nil => exact ⟨FileKeeps.refl _ _, fun _ _ => rfl⟩
  | cons x l ih =>
    obtain ⟨n, s⟩ := x
    unfold writeVars
    have h1 := ensureVar_keeps start f n s
    rcases hr : ensureVar f n s with ⟨f1, r⟩
    rw [hr] at h1
    have hne : ∀ q, q ∉ Dict.keys ((n, s) :: l) → q ≠ n ∧ q ∉ Dict.keys l := by
      intro q hq
      simp only [Dict.keys, List.map_cons, List.mem_cons, not_or] at hq
      exact hq
    cases r with
    | error e => exact ⟨h1.1, fun q hq => h1.2 q (hne q hq).1⟩
    | ok u =>
      dsimp only at h1 ⊢
      have h2 := writeRows_keeps start f1 n s
      rcases hr2 : writeRows f1 start n s with ⟨f2, r2⟩
      rw [hr2] at h2
      cases r2 with
      | error e => exact ⟨h1.1.trans h2.1, fun q hq => (h2.2.2 q (hne q hq).1).trans (h1.2 q (hne q hq).1)⟩
      | ok u =>
        dsimp only at h2 ⊢
        have h3 := ih f2
        exact ⟨(h1.1.trans h2.1).trans h3.1, fun q hq =>
          (h3.2 q (hne q hq).2).trans ((h2.2.2 q (hne q hq).1).trans (h1.2 q (hne q hq).1))⟩

/-- What a successful loop over the quantities has written. -/
theorem writeVars_ok {start : Nat} {l : Dict NCStack} {f : NCFile} (hn : (Dict.keys l).Nodup) (hf : f.WF)
    (hl : ∀ n s, Dict.get? l n = some s → s.dims.length = s.shape.length)
    (h : (writeVars start l f).2 = .ok ()) :
    (writeVars start l f).1.WF ∧
    ∀ n s, Dict.get? l n = some s → ∃ v, (writeVars start l f).1.vars.get? n = some v ∧ v.dims = "time" :: s.dims ∧
      (∀ k u, Dict.get? s.attrs k = some u → v.attrs.get? k = some u) ∧
      (f.vars.get? n = none → v.attrs = s.attrs) ∧
      ((∀ w, f.vars.get? n = some w → rowShape f s.dims = s.shape) →
        ∀ j r, s.rows[j]? = some r → r.shape = s.shape → v.rows (start + j) = some r) := by
  induction l generalizing f with
  | nil => exact ⟨hf, fun n s hs => by cases hs⟩
  | cons x l ih =>
    obtain ⟨n, s⟩ := x
    rw [show Dict.keys ((n, s) :: l) = n :: Dict.keys l from rfl, List.nodup_cons] at hn
    have hlen : s.dims.length = s.shape.length := hl n s (by rw [Dict.get?_cons, if_pos rfl])
    have hl' : ∀ n s, Dict.get? l n = some s → s.dims.length = s.shape.length := by
      intro q sq hq
      refine hl q sq ?_
      rw [Dict.get?_cons, if_neg]
      · exact hq
      · rintro rfl
        exact hn.1 (Dict.mem_keys_of_get? hq)
    unfold writeVars at h ⊢
    have k1 := ensureVar_keeps start f n s
    have o1 := @ensureVar_ok f n s
    rcases hr : ensureVar f n s with ⟨f1, r⟩
    rw [hr] at k1 o1 h
    cases r with
    | error e => cases h
    | ok u =>
      dsimp only at k1 o1 h ⊢
      obtain ⟨v, hv, hvd, hva, hvs⟩ := o1 rfl
      have k2 := writeRows_keeps start f1 n s
      have o2 := @writeRows_ok start f1 n s v hv
      rcases hr2 : writeRows f1 start n s with ⟨f2, r2⟩
      rw [hr2] at k2 o2 h
      cases r2 with
      | error e => cases h
      | ok u =>
        dsimp only at k2 o2 h ⊢
        obtain ⟨v2, hv2, hvd2, hva2, hrows⟩ := o2 rfl
        have k3 := writeVars_keeps start l f2
        have hf2 : f2.WF := by
          intro q' w hw
          by_cases e' : q' = n
          · subst e'
            rw [hv2] at hw
            injection hw with hw
            subst hw
            refine ⟨s.dims, hvd2.trans hvd, ?_⟩
            intro d hd
            refine k2.1.mem_dims ?_
            rcases hvs with hvs | ⟨-, -, hvs⟩
            · obtain ⟨ds, hds, hex⟩ := hf _ _ hvs
              rw [hvd] at hds
              injection hds with _ hds
              subst hds
              exact k1.1.mem_dims (hex d hd)
            · exact (hvs hlen).1 d hd
          · rw [k2.2.2 q' e', k1.2 q' e'] at hw
            obtain ⟨ds, hds, hex⟩ := hf q' w hw
            exact ⟨ds, hds, fun d hd => (k1.1.trans k2.1).mem_dims (hex d hd)⟩
        obtain ⟨hwf, ih⟩ := ih hn.2 hf2 hl' h
        refine ⟨hwf, ?_⟩
        intro q sq hq
        rw [Dict.get?_cons] at hq
        split at hq
        · rename_i e
          injection hq with hq
          subst hq e
          refine ⟨v2, ?_, hvd2.trans hvd, ?_, ?_, ?_⟩
          · rw [k3.2 _ hn.1]
            exact hv2
          · intro k u hk
            rw [hva2]
            exact hva k u hk
          · intro hnone
            rcases hvs with hvs | ⟨-, ha, -⟩
            · rw [hnone] at hvs
              cases hvs
            · exact hva2.trans ha
          · intro hold j r hj hshape
            refine hrows j r hj ?_
            rw [hvd]
            show r.shape = rowShape f1 s.dims
            rcases hvs with hvs | ⟨-, -, hvs⟩
            · obtain ⟨ds, hds, hex⟩ := hf _ _ hvs
              rw [hvd] at hds
              injection hds with _ hds
              subst hds
              rw [k1.1.rowShape hex, hold v hvs]
              exact hshape
            · rw [(hvs hlen).2]
              exact hshape
        · rename_i e
          have hqn : q ≠ n := fun e' => e e'.symm
          have hq2 : f2.vars.get? q = f.vars.get? q := (k2.2.2 q hqn).trans (k1.2 q hqn)
          obtain ⟨w, h1, h2, h3, h5, h4⟩ := ih q sq hq
          refine ⟨w, h1, h2, h3, fun hnone => h5 (hq2.trans hnone), fun hold j r hj hshape => h4 ?_ j r hj hshape⟩
          intro w' hw'
          obtain ⟨w2, hw2, hd2, -, -⟩ := k3.1.vars q w' hw'
          rw [h1] at hw2
          injection hw2 with hw2
          subst hw2
          rw [hq2] at hw'
          obtain ⟨ds, hds, hex⟩ := hf q w' hw'
          rw [← hd2, h2] at hds
          injection hds with _ hds
          subst hds
          rw [(k1.1.trans k2.1).rowShape hex]
          exact hold w' hw'

/-- Only `time` is unlimited. -/
def OnlyTime (f : NCFile) : Prop := ∀ d, f.dims.get? d = some none → d = "time"

theorem ensureDim_onlyTime {f : NCFile} (h : OnlyTime f) {d : String} {n : Option Nat} (hn : n = none → d = "time") :
    OnlyTime (ensureDim f d n).1 := by
  unfold ensureDim
  cases hd : f.dims.get? d with
  | none =>
    intro d' hd'
    dsimp only at hd'
    rw [Dict.get?_set] at hd'
    split at hd'
    · rename_i e
      injection hd' with hd'
      rw [← e]
      exact hn hd'
    · exact h d' hd'
  | some m => cases n <;> cases m <;> exact h

theorem ensureDims_onlyTime {f : NCFile} (h : OnlyTime f) (l : List (String × Nat)) : OnlyTime (ensureDims f l).1 := by
  induction l generalizing f with
  | nil => exact h
  | cons x l ih =>
    obtain ⟨d, n⟩ := x
    have := ensureDim_onlyTime h (d := d) (n := some n) (fun e => by cases e)
    unfold ensureDims
    rcases hr : ensureDim f d (some n) with ⟨f1, r⟩
    rw [hr] at this
    cases r with
    | error e => exact this
    | ok u => exact ih this

theorem ensureVar_onlyTime {f : NCFile} (h : OnlyTime f) (n : String) (s : NCStack) : OnlyTime (ensureVar f n s).1 := by
  unfold ensureVar
  cases hv : f.vars.get? n with
  | some v => exact h
  | none =>
    dsimp only
    have h1 := ensureDim_onlyTime h (d := "time") (n := none) (fun _ => rfl)
    rcases hr : ensureDim f "time" none with ⟨f1, r⟩
    rw [hr] at h1
    cases r with
    | error e => exact h1
    | ok u =>
      dsimp only at h1 ⊢
      have h2 := ensureDims_onlyTime h1 (s.dims.zip s.shape)
      rcases hr2 : ensureDims f1 (s.dims.zip s.shape) with ⟨f2, r2⟩
      rw [hr2] at h2
      cases r2 with
      | error e => exact h2
      | ok u => exact h2

theorem ensureVar_nodup {f : NCFile} (h : (Dict.keys f.vars).Nodup) (n : String) (s : NCStack) :
    (Dict.keys (ensureVar f n s).1.vars).Nodup := by
  unfold ensureVar
  cases hv : f.vars.get? n with
  | some v => exact h
  | none =>
    dsimp only
    have hk := ensureDim_keeps 0 f "time" none
    rcases hr : ensureDim f "time" none with ⟨f1, r⟩
    rw [hr] at hk
    cases r with
    | error e => dsimp only at hk ⊢; rw [hk.2]; exact h
    | ok u =>
      dsimp only at hk ⊢
      have hk2 := ensureDims_keeps 0 (s.dims.zip s.shape) f1
      rcases hr2 : ensureDims f1 (s.dims.zip s.shape) with ⟨f2, r2⟩
      rw [hr2] at hk2
      cases r2 with
      | error e => dsimp only at hk2 ⊢; rw [hk2.2, hk.2]; exact h
      | ok u => dsimp only at hk2 ⊢; rw [hk2.2, hk.2]; exact Dict.nodup_keys_set h _ _

theorem writeRows_nodup {f : NCFile} (h : (Dict.keys f.vars).Nodup) (start : Nat) (n : String) (s : NCStack) :
    (Dict.keys (writeRows f start n s).1.vars).Nodup := by
  unfold writeRows
  cases hv : f.vars.get? n with
  | none => exact h
  | some v =>
    dsimp only
    cases hr : s.rows.mapM (fun r => assignTo r (rowShape f v.dims.tail)) with
    | error e => exact h
    | ok rows => exact Dict.nodup_keys_set h _ _

theorem writeVars_inv (start : Nat) (l : Dict NCStack) {f : NCFile} (h1 : OnlyTime f) (h2 : (Dict.keys f.vars).Nodup) :
    OnlyTime (writeVars start l f).1 ∧ (Dict.keys (writeVars start l f).1.vars).Nodup := by
  induction l generalizing f with
  | nil => exact ⟨h1, h2⟩
  | cons x l ih =>
    obtain ⟨n, s⟩ := x
    unfold writeVars
    have a1 := ensureVar_onlyTime h1 n s
    have a2 := ensureVar_nodup h2 n s
    rcases hr : ensureVar f n s with ⟨f1, r⟩
    rw [hr] at a1 a2
    cases r with
    | error e => exact ⟨a1, a2⟩
    | ok u =>
      dsimp only at a1 a2 ⊢
      have b1 : OnlyTime (writeRows f1 start n s).1 := by
        intro d hd
        rw [(writeRows_keeps start f1 n s).2.1] at hd
        exact a1 d hd
      have b2 := writeRows_nodup a2 start n s
      rcases hr2 : writeRows f1 start n s with ⟨f2, r2⟩
      rw [hr2] at b1 b2
      cases r2 with
      | error e => exact ⟨b1, b2⟩
      | ok u => exact ih b1 b2

/-! ## Times -/

theorem truncRat_int (k : Int) : truncRat k = k := by
  unfold truncRat
  simp

theorem truncRat_close (q : Rat) : -1 < q - truncRat q ∧ q - truncRat q < 1 := by
  have hd : (0 : Rat) < q.den := by exact_mod_cast q.den_pos
  have hden : (0 : Int) < q.den := by exact_mod_cast q.den_pos
  have h1 : q = q.num / q.den := (Rat.num_div_den q).symm
  have h2 : (q.num : Int) = q.den * (q.num.tdiv q.den) + q.num.tmod q.den := (Int.mul_tdiv_add_tmod _ _).symm
  have h3 : q.num.tmod q.den < q.den := Int.tmod_lt_of_pos _ hden
  have h4 : -(q.den : Int) < q.num.tmod q.den := by
    rw [Int.tmod_eq_emod]
    have e1 := Int.emod_nonneg q.num hden.ne'
    have e2 := Int.emod_lt_of_pos q.num hden
    split
    · omega
    · rename_i hneg
      have : q.num % (q.den : Int) ≠ 0 := fun h0 => hneg (.inr (Int.dvd_of_emod_eq_zero h0))
      simp only [Int.natAbs_natCast]
      omega
  have h5 : q - truncRat q = (q.num.tmod q.den : Int) / (q.den : Rat) := by
    unfold truncRat
    rw [eq_div_iff hd.ne', sub_mul]
    have : q * q.den = q.num := by
      exact Rat.mul_den_eq_num q
    rw [this]
    have h2' : (q.num : Rat) = q.den * ((q.num.tdiv q.den : Int) : Rat) + ((q.num.tmod q.den : Int) : Rat) := by
      exact_mod_cast h2
    linarith [mul_comm ((q.num.tdiv q.den : Int) : Rat) (q.den : Rat)]
  rw [h5]
  constructor
  · rw [lt_div_iff₀ hd]
    have : (-(q.den : Int) : Rat) < ((q.num.tmod q.den : Int) : Rat) := by exact_mod_cast h4
    simpa using this
  · rw [div_lt_one₀ hd]
    exact_mod_cast h3

theorem timeNumber_trunc {us : Rat} (h : 0 < us) (ref t : Int) : TimeNumber us ref t (truncRat ((t - ref : Rat) / us)) := by
  constructor
  · intro k hk
    rw [hk, mul_div_assoc, div_self h.ne', mul_one]
    exact truncRat_int k
  · have h1 := truncRat_close ((t - ref : Rat) / us)
    have h2 : (t - ref : Rat) = (t - ref : Rat) / us * us := by field_simp
    constructor <;> nlinarith [h1.1, h1.2]

end Verif

namespace Verif

/-! ## What is cached of a state -/

/-- A dictionary with different keys whose arrays have one dim per axis (what Python and
xarray guarantee). -/
def StateOk (s : State) : Prop :=
  (Dict.keys s).Nodup ∧ ∀ n a, Dict.get? s n = some (.da a) → a.dims.length = a.arr.shape.length

theorem stateOk_of_mem {s cs : State} (h : StateOk s) (hn : (Dict.keys cs).Nodup)
    (hv : ∀ n v, Dict.get? cs n = some v → ∃ n', Dict.get? s n' = some v) : StateOk cs := by
  refine ⟨hn, fun n a ha => ?_⟩
  obtain ⟨n', hn'⟩ := hv n _ ha
  exact h.2 n' a hn'

theorem get?_filterMap {s : State} {l : List String} {n : String} :
    Dict.get? (l.filterMap fun n => (Dict.get? s n).map fun v => (n, v)) n =
      if n ∈ l then Dict.get? s n else none := by
  induction l with
  | nil => rfl
  | cons a l ih =>
    rw [List.filterMap_cons]
    cases ha : Dict.get? s a with
    | none =>
      dsimp only [Option.map_none]
      rw [ih]
      by_cases h : n = a
      · subst h
        simp [ha]
      · simp [h]
    | some v =>
      dsimp only [Option.map_some]
      rw [Dict.get?_cons, ih]
      by_cases h : a = n
      · subst h
        simp [ha]
      · rw [if_neg h]
        simp [Ne.symm h]

theorem keys_filterMap {s : State} {l : List String} :
    Dict.keys (l.filterMap fun n => (Dict.get? s n).map fun v => (n, v)) = l.filter (fun n => (Dict.get? s n).isSome) := by
  induction l with
  | nil => rfl
  | cons a l ih =>
    rw [List.filterMap_cons, List.filter_cons]
    cases ha : Dict.get? s a with
    | none => simpa using ih
    | some v =>
      dsimp only [Option.map_some]
      simp only [Option.isSome_some, if_true]
      rw [← ih]
      rfl

/-- Selection: the quantities of the state, or those among the names given, and the
time. -/
theorem ncSelect_spec (order : SetOrder) (names : Option (List String)) {s : State} (h : (Dict.keys s).Nodup) :
    (Dict.keys (ncSelect order names s)).Nodup ∧
    ∀ n, Dict.get? (ncSelect order names s) n =
      if n = "time" ∨ (∀ l, names = some l → n ∈ l) then Dict.get? s n else none := by
  unfold ncSelect
  cases names with
  | none =>
    refine ⟨h, fun n => ?_⟩
    rw [if_pos]
    exact .inr fun l hl => by cases hl
  | some l =>
    dsimp only
    constructor
    · rw [keys_filterMap]
      exact ((order.perm _).nodup_iff.2 (h.filter _)).filter _
    · intro n
      rw [get?_filterMap]
      have hmem : n ∈ order.f ((Dict.keys s).filter (· ∈ "time" :: l)) ↔ n ∈ Dict.keys s ∧ (n = "time" ∨ n ∈ l) := by
        rw [(order.perm _).mem_iff, List.mem_filter]
        simp
      by_cases hc : n = "time" ∨ n ∈ l
      · rw [if_pos (c := n = "time" ∨ _)]
        · split
          · rfl
          · rename_i hx
            rw [hmem] at hx
            exact ((Dict.get?_eq_none_iff _ _).2 fun hk => hx ⟨hk, hc⟩).symm
        · rcases hc with hc | hc
          · exact .inl hc
          · refine .inr fun l' hl => ?_
            injection hl with hl
            subst hl
            exact hc
      · rw [if_neg, if_neg]
        · rintro (hx | hx)
          · exact hc (.inl hx)
          · exact hc (.inr (hx l rfl))
        · rw [hmem]
          exact fun hx => hc hx.2

theorem ncAliasPass_vals {long short : String} {l : List String} {cs cs' : State} (hn : (Dict.keys cs).Nodup)
    (h : ncAliasPass long short l cs = .ok cs') :
    (Dict.keys cs').Nodup ∧ ∀ n v, Dict.get? cs' n = some v → ∃ n', Dict.get? cs n' = some v := by
  induction l generalizing cs with
  | nil =>
    injection h with h
    subst h
    exact ⟨hn, fun n v hv => ⟨n, hv⟩⟩
  | cons a l ih =>
    unfold ncAliasPass at h
    split at h
    · split at h
      · cases h
      · cases hv : Dict.get? cs a with
        | none => rw [hv] at h; cases h
        | some v =>
          rw [hv] at h
          dsimp only at h
          have hn1 : (Dict.keys (Dict.erase cs a)).Nodup := by
            rw [Dict.keys_erase]
            exact hn.erase _
          obtain ⟨i1, i2⟩ := ih (Dict.nodup_keys_set hn1 _ _) h
          refine ⟨i1, fun n w hw => ?_⟩
          obtain ⟨n', hn'⟩ := i2 n w hw
          rw [Dict.get?_set] at hn'
          split at hn'
          · injection hn' with hn'
            subst hn'
            exact ⟨a, hv⟩
          · by_cases e : n' = a
            · subst e
              rw [Dict.get?_erase_self hn] at hn'
              cases hn'
            · rw [Dict.get?_erase_ne _ (Ne.symm e)] at hn'
              exact ⟨n', hn'⟩
    · exact ih hn h

theorem ncAliases_vals {al : Dict String} {cs cs' : State} (hn : (Dict.keys cs).Nodup)
    (h : ncAliases al cs = .ok cs') :
    (Dict.keys cs').Nodup ∧ ∀ n v, Dict.get? cs' n = some v → ∃ n', Dict.get? cs n' = some v := by
  induction al generalizing cs with
  | nil =>
    injection h with h
    subst h
    exact ⟨hn, fun n v hv => ⟨n, hv⟩⟩
  | cons x al ih =>
    obtain ⟨long, short⟩ := x
    unfold ncAliases at h
    obtain ⟨c1, h1, h⟩ := Exc.bind_ok_iff.1 h
    obtain ⟨a1, a2⟩ := ncAliasPass_vals hn h1
    obtain ⟨b1, b2⟩ := ih a1 h
    refine ⟨b1, fun n v hv => ?_⟩
    obtain ⟨n1, h1⟩ := b2 n v hv
    exact a2 n1 v h1

theorem ncPrepare_ok {order : SetOrder} {m : NCMon} {s cs : State} {t : Int} (hs : StateOk s)
    (h : ncPrepare order m s = .ok (t, cs)) : StateOk cs := by
  unfold ncPrepare at h
  dsimp only at h
  split at h
  · cases h
  · obtain ⟨c1, h1, h⟩ := Exc.bind_ok_iff.1 h
    obtain ⟨sn, sv⟩ := ncSelect_spec order m.storeNames hs.1
    obtain ⟨a1, a2⟩ := ncAliases_vals sn h1
    cases ht : Dict.get? c1 "time" with
    | none => rw [ht] at h; cases h
    | some v =>
      rw [ht] at h
      obtain ⟨t', ht', h⟩ := Exc.bind_ok_iff.1 h
      injection h with h
      injection h with e1 e2
      subst e1 e2
      refine stateOk_of_mem hs ?_ ?_
      · rw [Dict.keys_erase]
        exact a1.erase _
      · intro n v hv
        by_cases e : n = "time"
        · subst e
          rw [Dict.get?_erase_self a1] at hv
          cases hv
        · rw [Dict.get?_erase_ne _ (Ne.symm e)] at hv
          obtain ⟨n1, h1⟩ := a2 n v hv
          rw [sv] at h1
          split at h1
          · exact ⟨n1, h1⟩
          · cases h1

end Verif

namespace Verif

/-! ## Valid files stay valid, also at exceptions -/

theorem ensureVar_error {f : NCFile} {n : String} {s : NCStack} {e : Err} (h : (ensureVar f n s).2 = .error e) :
    (ensureVar f n s).1.vars = f.vars := by
  unfold ensureVar at h ⊢
  cases hv : f.vars.get? n with
  | some v => rfl
  | none =>
    rw [hv] at h
    dsimp only at h ⊢
    have hk := ensureDim_keeps 0 f "time" none
    rcases hr : ensureDim f "time" none with ⟨f1, r⟩
    rw [hr] at hk h
    cases r with
    | error e => exact hk.2
    | ok u =>
      dsimp only at hk h ⊢
      have hk2 := ensureDims_keeps 0 (s.dims.zip s.shape) f1
      rcases hr2 : ensureDims f1 (s.dims.zip s.shape) with ⟨f2, r2⟩
      rw [hr2] at hk2 h
      cases r2 with
      | error e => exact hk2.2.trans hk.2
      | ok u => cases h

theorem ensureVar_wf {f : NCFile} (hf : f.WF) (n : String) (s : NCStack) (hlen : s.dims.length = s.shape.length) :
    (ensureVar f n s).1.WF := by
  have hk := ensureVar_keeps 0 f n s
  intro q v hv
  cases hr : (ensureVar f n s).2 with
  | error e =>
    rw [ensureVar_error hr] at hv
    obtain ⟨ds, h1, h2⟩ := hf q v hv
    exact ⟨ds, h1, fun d hd => hk.1.mem_dims (h2 d hd)⟩
  | ok u =>
    by_cases e : q = n
    · subst e
      obtain ⟨w, hw, hd, -, hs⟩ := ensureVar_ok hr
      rw [hw] at hv
      injection hv with hv
      subst hv
      rcases hs with hs | ⟨-, -, hs⟩
      · obtain ⟨ds, h1, h2⟩ := hf q w hs
        exact ⟨ds, h1, fun d hd => hk.1.mem_dims (h2 d hd)⟩
      · exact ⟨s.dims, hd, (hs hlen).1⟩
    · rw [hk.2 q e] at hv
      obtain ⟨ds, h1, h2⟩ := hf q v hv
      exact ⟨ds, h1, fun d hd => hk.1.mem_dims (h2 d hd)⟩

theorem writeRows_wf {f : NCFile} (hf : f.WF) (start : Nat) (n : String) (s : NCStack) :
    (writeRows f start n s).1.WF := by
  have hk := writeRows_keeps start f n s
  intro q v hv
  rw [hk.2.1]
  by_cases e : q = n
  · subst e
    cases hq : f.vars.get? q with
    | none =>
      unfold writeRows at hv
      rw [hq] at hv
      dsimp only at hv
      rw [hq] at hv
      cases hv
    | some w =>
      obtain ⟨w', hw', hd, -, -⟩ := hk.1.vars q w hq
      rw [hw'] at hv
      injection hv with hv
      subst hv
      rw [hd]
      exact hf q w hq
  · rw [hk.2.2 q e] at hv
    exact hf q v hv

theorem writeVars_wf (start : Nat) {l : Dict NCStack} {f : NCFile} (hf : f.WF)
    (hl : ∀ n s, (n, s) ∈ l → s.dims.length = s.shape.length) : (writeVars start l f).1.WF := by
  induction l generalizing f with
  | nil => exact hf
  | cons x l ih =>
    obtain ⟨n, s⟩ := x
    unfold writeVars
    have a1 := ensureVar_wf hf n s (hl n s List.mem_cons_self)
    rcases hr : ensureVar f n s with ⟨f1, r⟩
    rw [hr] at a1
    cases r with
    | error e => exact a1
    | ok u =>
      dsimp only at a1 ⊢
      have b1 := writeRows_wf a1 start n s
      rcases hr2 : writeRows f1 start n s with ⟨f2, r2⟩
      rw [hr2] at b1
      cases r2 with
      | error e => exact b1
      | ok u => exact ih b1 (fun n s hm => hl n s (List.mem_cons_of_mem _ hm))

/-- What `_ensure_time_exists` does. -/
theorem ensureTime_spec (us : Rat) (deltas : Bool) (f : NCFile) (t : Int) :
    (ensureTime us deltas f t).1.ntime = f.ntime ∧ (ensureTime us deltas f t).1.times = f.times ∧
    (ensureTime us deltas f t).1.vars = f.vars ∧
    (∀ d x, f.dims.get? d = some x → (ensureTime us deltas f t).1.dims.get? d = some x) ∧
    (∀ x, f.timeVar = some x → (ensureTime us deltas f t).1.timeVar = some x) ∧
    (∀ x, (ensureTime us deltas f t).1.timeVar = some x →
      f.timeVar = some x ∨ f.timeVar = none ∧ x = (us, if deltas then 0 else t)) ∧
    ((ensureTime us deltas f t).2 = .ok () → ∃ x, (ensureTime us deltas f t).1.timeVar = some x) ∧
    (OnlyTime f → OnlyTime (ensureTime us deltas f t).1) := by
  have hk := ensureDim_keeps 0 f "time" none
  have ho : OnlyTime f → OnlyTime (ensureDim f "time" none).1 := fun h =>
    ensureDim_onlyTime h (d := "time") (n := none) (fun _ => rfl)
  unfold ensureTime
  rcases hr : ensureDim f "time" none with ⟨f1, r⟩
  rw [hr] at hk ho
  obtain ⟨⟨k1, k2, k3, k4, -⟩, k5⟩ := hk
  dsimp only at k1 k2 k3 k4 k5 ho
  cases r with
  | error e =>
    exact ⟨k1, k2, k5, k4, fun x hx => k3.trans hx, fun x hx => .inl (k3 ▸ hx), fun h => (by cases h), ho⟩
  | ok u =>
    dsimp only
    cases ht : f1.timeVar with
    | some x =>
      dsimp only
      exact ⟨k1, k2, k5, k4, fun x hx => k3.trans hx, fun x hx => .inl (k3 ▸ hx), fun _ => ⟨x, ht⟩, ho⟩
    | none =>
      dsimp only
      rw [← k3, ht]
      refine ⟨k1, k2, k5, k4, fun x hx => (by cases hx), fun x hx => .inr ⟨rfl, ?_⟩, fun _ => ⟨_, rfl⟩, ho⟩
      injection hx with hx
      exact hx.symm

theorem ensureTime_valid {us : Rat} {deltas : Bool} {f : NCFile} (h : f.Valid us deltas) (t : Int) :
    (ensureTime us deltas f t).1.Valid us deltas := by
  obtain ⟨-, -, e3, e4, -, e6, -, e8⟩ := ensureTime_spec us deltas f t
  refine ⟨?_, e8 h.unlimited, by rw [e3]; exact h.nodup, ?_⟩
  · intro q v hv
    rw [e3] at hv
    obtain ⟨ds, h1, h2⟩ := h.wf q v hv
    refine ⟨ds, h1, fun d hd => ?_⟩
    obtain ⟨x, hx⟩ := Dict.get?_of_mem_keys (h2 d hd)
    exact Dict.mem_keys_of_get? (e4 d x hx)
  · intro us' ref hx
    rcases e6 _ hx with hx | ⟨-, hx⟩
    · exact h.time us' ref hx
    · injection hx with h1 h2
      subst h1
      refine ⟨rfl, fun hd => ?_⟩
      rw [h2, hd]
      rfl

theorem combineStates_len {states : List State} {stk : Dict NCStack} (h : combineStates states = .ok stk)
    (hs : ∀ s ∈ states, StateOk s) : ∀ n st, (n, st) ∈ stk → st.dims.length = st.shape.length := by
  unfold combineStates at h
  cases states with
  | nil => cases h
  | cons first rest =>
    dsimp only at h
    obtain ⟨header, hh, h⟩ := Exc.bind_ok_iff.1 h
    obtain ⟨rows, hr, h⟩ := Exc.bind_ok_iff.1 h
    injection h with h
    obtain ⟨k1, k2⟩ := stackHeader_ok hh
    intro n st hm
    rw [← h] at hm
    obtain ⟨⟨n', hd⟩, hm', e⟩ := List.mem_map.1 hm
    injection e with e1 e2
    subst e1 e2
    have hnd : (Dict.keys header).Nodup := by
      rw [k1]
      exact (hs _ List.mem_cons_self).1
    have := k2 n'
    rw [Dict.get?_of_mem hnd hm'] at this
    exact (hs _ List.mem_cons_self).2 n' hd this

theorem appendTimes_valid {us : Rat} {deltas : Bool} {f : NCFile} (h : f.Valid us deltas) (ts : List Int) :
    (appendTimes us deltas f ts).Valid us deltas := ⟨h.wf, h.unlimited, h.nodup, h.time⟩

theorem empty_valid (us : Rat) (deltas : Bool) : NCFile.empty.Valid us deltas := by
  refine ⟨?_, ?_, List.nodup_nil, ?_⟩
  · intro q v hv
    cases hv
  · intro d hd
    cases hd
  · intro us' ref h
    cases h

theorem writeFile_valid {us : Rat} {deltas : Bool} {c : NCCache} {f : NCFile} (h : f.Valid us deltas)
    (hc : ∀ t s, (t, s) ∈ c → StateOk s) : (ncWriteFile us deltas c f).1.Valid us deltas := by
  unfold ncWriteFile
  cases hk : ncCheckKeys c f with
  | error e => exact h
  | ok u =>
    dsimp only
    have hmem : ∀ t s, (t, s) ∈ ncSort c → StateOk s := fun t s hm => hc t s ((ncSort_perm c).mem_iff.1 hm)
    cases hs : ncSort c with
    | nil => exact h
    | cons x rest =>
      obtain ⟨t, s⟩ := x
      rw [hs] at hmem
      dsimp only
      have hv := ensureTime_valid h t
      rcases hr : ensureTime us deltas f t with ⟨f1, r⟩
      rw [hr] at hv
      cases r with
      | error e => exact hv
      | ok u =>
        dsimp only at hv ⊢
        have hv2 := appendTimes_valid hv (((t, s) :: rest).map (·.1))
        cases hcs : combineStates (((t, s) :: rest).map (·.2)) with
        | error e => exact hv2
        | ok stk =>
          dsimp only
          have hst : ∀ s' ∈ ((t, s) :: rest).map (·.2), StateOk s' := by
            intro s' hs'
            obtain ⟨⟨t', s''⟩, hm, rfl⟩ := List.mem_map.1 hs'
            exact hmem t' s'' hm
          have hl := combineStates_len hcs hst
          have hinv := writeVars_inv f1.ntime stk hv2.unlimited hv2.nodup
          refine ⟨writeVars_wf _ hv2.wf hl, hinv.1, hinv.2, ?_⟩
          intro us' ref hx
          rw [(writeVars_keeps f1.ntime stk _).1.timeVar] at hx
          exact hv2.time us' ref hx

/-- A successful write appends the cached states. -/
theorem writeFile_appends {us : Rat} {deltas : Bool} {c : NCCache} {ps : List (Int × State)} {f : NCFile}
    (hc : CacheOf c ps) (hok : ∀ t s, (t, s) ∈ c → StateOk s) (hf : f.Valid us deltas) (hreg : RegularBatch f ps)
    (h : (ncWriteFile us deltas c f).2 = .ok ()) :
    ∃ ts, Appended f (ncWriteFile us deltas c f).1 ps ts ∧
      ∃ us' ref, (ncWriteFile us deltas c f).1.timeVar = some (us', ref) ∧
        (∀ x, f.timeVar = some x → x = (us', ref)) ∧
        (f.timeVar = none → us' = us ∧ ref = if deltas then 0 else ts.headD 0) ∧
        (0 < us → ∀ (j : Nat) t, ts[j]? = some t → ∃ n, (ncWriteFile us deltas c f).1.times (f.ntime + j) = some n ∧
          TimeNumber us' ref t n) := by
  have hkeys := ncCheckKeys_iff (f := f) hc.keys hf.nodup
  unfold ncWriteFile at h ⊢
  cases hk : ncCheckKeys c f with
  | error e => rw [hk] at h; cases h
  | ok u =>
    rw [hk] at h
    dsimp only at h ⊢
    obtain ⟨same, sameFile⟩ := hkeys.1.1 hk
    have hperm := ncSort_perm c
    have hinc := ncSort_increasing hc.nodup
    cases hs : ncSort c with
    | nil => rw [hs] at h; cases h
    | cons x rest =>
      obtain ⟨t0, s0⟩ := x
      rw [hs] at h hperm hinc
      dsimp only at h ⊢
      obtain ⟨e1, e2, e3, e4, e5, e6, e7, e8⟩ := ensureTime_spec us deltas f t0
      have hv := ensureTime_valid hf t0
      rcases hr : ensureTime us deltas f t0 with ⟨f1, r⟩
      rw [hr] at h e1 e2 e3 e4 e5 e6 e7 e8 hv
      cases r with
      | error e => cases h
      | ok u =>
        dsimp only at h e1 e2 e3 e4 e5 e6 e7 e8 hv ⊢
        cases hcs : combineStates (((t0, s0) :: rest).map (·.2)) with
        | error e => rw [hcs] at h; cases h
        | ok stk =>
          rw [hcs] at h
          dsimp only at h ⊢
          generalize hL : (t0, s0) :: rest = L at *
          have hmemL : ∀ t s, (t, s) ∈ L ↔ (t, s) ∈ c := fun t s => hperm.mem_iff
          have hstates : ∀ s, s ∈ L.map (·.2) ↔ ∃ t, (t, s) ∈ c := by
            intro s
            rw [List.mem_map]
            constructor
            · rintro ⟨⟨t, s'⟩, hm, rfl⟩
              exact ⟨t, (hmemL _ _).1 hm⟩
            · rintro ⟨t, hm⟩
              exact ⟨(t, s), (hmemL _ _).2 hm, rfl⟩
          obtain ⟨n1, n2, n3, n4⟩ := combineStates_ok hcs
            (fun s hs' => by
              obtain ⟨t, hm⟩ := (hstates s).1 hs'
              exact hc.keys t s hm)
            (fun s hs' s' hs'' q => by
              obtain ⟨t, hm⟩ := (hstates s).1 hs'
              obtain ⟨t', hm'⟩ := (hstates s').1 hs''
              exact same t s t' s' hm hm' q)
          have hv2 := appendTimes_valid hv (L.map (·.1))
          generalize hf2 : appendTimes us deltas f1 (L.map (·.1)) = f2 at *
          have hvars2 : f2.vars = f.vars := by rw [← hf2]; exact e3
          have hdims2 : f2.dims = f1.dims := by rw [← hf2]; rfl
          have hlast : ∀ t s q, (t, s) ∈ c → Dict.get? s q = lastStored ps t q := by
            intro t s q hm
            rw [← hc.vals, cacheGet_of_mem hc.nodup hm]
            rfl
          have hkeep := writeVars_keeps f1.ntime stk f2
          have hlen : ∀ n st, Dict.get? stk n = some st → st.dims.length = st.shape.length := by
            intro n st hst
            obtain ⟨hd, ⟨s, hs', hg⟩, d1, d2, -⟩ := n4 n st hst
            obtain ⟨t, hm⟩ := (hstates s).1 hs'
            rw [d1, d2]
            exact (hok t s hm).2 n hd hg
          obtain ⟨-, hwritten⟩ := writeVars_ok n1 hv2.wf hlen h
          generalize hf3 : (writeVars f1.ntime stk f2).1 = f3 at *
          have htimes3 : f3.times = f2.times := hkeep.1.times
          obtain ⟨x, hx⟩ := e7 rfl
          obtain ⟨us', ref⟩ := x
          refine ⟨L.map (·.1), ⟨hinc, ?_, ?_, ?_, ?_, ?_, ?_, ?_⟩, us', ref, ?_, ?_, ?_, ?_⟩
          · intro t
            rw [← hc.times, (hperm.map (·.1)).mem_iff]
          · rw [hkeep.1.ntime, ← hf2]
            show f1.ntime + _ = _
            rw [e1]
          · intro i hi
            rw [htimes3, ← hf2]
            show (if _ then _ else _) = _
            rw [if_neg (by omega), e2]
          · intro q v hq
            rw [← hvars2] at hq
            obtain ⟨v', h1, h2, h3, h4⟩ := hkeep.1.vars q v hq
            exact ⟨v', h1, h2, h3, fun i hi => h4 i (by omega)⟩
          · intro j t hj q v hlv
            rw [List.getElem?_map] at hj
            cases hLj : L[j]? with
            | none => rw [hLj] at hj; cases hj
            | some ts =>
              obtain ⟨t', s⟩ := ts
              rw [hLj] at hj
              injection hj with hj
              dsimp only at hj
              subst hj
              have hmL : (t', s) ∈ L := List.mem_iff_getElem?.2 ⟨j, hLj⟩
              have hmc := (hmemL _ _).1 hmL
              rw [← hlast t' s q hmc] at hlv
              obtain ⟨a, rfl, ha⟩ := n3 s ((hstates s).2 ⟨t', hmc⟩) q v hlv
              refine ⟨a, rfl, ?_⟩
              have hqk : q ∈ Dict.keys stk := (n2 s ((hstates s).2 ⟨t', hmc⟩) q).2 (Dict.mem_keys_of_get? hlv)
              obtain ⟨st, hst⟩ := Dict.get?_of_mem_keys hqk
              obtain ⟨hd, ⟨s', hs', hg⟩, d1, d2, d3, d4, d5⟩ := n4 q st hst
              obtain ⟨t'', hm''⟩ := (hstates s').1 hs'
              have hlv' := hlv
              rw [hlast t' s q hmc] at hlv'
              rw [hlast t'' s' q hm''] at hg
              obtain ⟨r1, r2, r3⟩ := hreg.1 q t' t'' a hd hlv' hg
              obtain ⟨w, w1, w2, w3, -, w4⟩ := hwritten q st hst
              refine ⟨w, w1, by rw [w2, d1, r1], ?_, ?_⟩
              · intro k u hku
                refine w3 k u ?_
                rw [d3, ← r3]
                exact hku
              · rw [← e1]
                refine w4 ?_ j a.arr (d5 j s (by rw [List.getElem?_map, hLj]; rfl) a hlv r2) (by rw [d2, r2])
                intro w0 hw0
                -- the variable is in the file already
                obtain ⟨w', hw', hd', -, -⟩ := hkeep.1.vars q w0 hw0
                rw [w1] at hw'
                injection hw' with hw'
                subst hw'
                rw [hvars2] at hw0
                have hsh := hreg.2.1 q t'' hd w0 hg hw0
                rw [← hd', w2] at hsh
                change rowShape f st.dims = _ at hsh
                rw [d2, ← hsh, rowShape_eq, rowShape_eq]
                refine List.map_congr_left fun d hdm => ?_
                obtain ⟨ds, hds, hex⟩ := hf.wf q w0 hw0
                rw [← hd', w2] at hds
                injection hds with _ hds
                subst hds
                obtain ⟨y, hy⟩ := Dict.get?_of_mem_keys (hex d hdm)
                unfold dimLen
                rw [hdims2, e4 d y hy, hy]
                cases y with
                | some k => rfl
                | none =>
                  have := hf.unlimited d hy
                  subst this
                  rw [d1] at hdm
                  exact absurd hdm (hreg.2.2 q t'' hd hg).2
          · intro t ht q
            obtain ⟨⟨t', s⟩, hmL, rfl⟩ := List.mem_map.1 ht
            have hmc := (hmemL _ _).1 hmL
            rw [← hlast t' s q hmc, Dict.get?_isSome_iff]
            have hst := n2 s ((hstates s).2 ⟨t', hmc⟩) q
            rw [← hst]
            constructor
            · intro hq
              by_contra hnot
              obtain ⟨v, hv'⟩ := Dict.get?_of_mem_keys hq
              rw [hkeep.2 q hnot, hvars2] at hv'
              have hne : f.vars ≠ [] := by
                intro e
                rw [e] at hv'
                cases hv'
              exact hnot (hst.2 ((sameFile hne t' s hmc q).2 (Dict.mem_keys_of_get? hv')))
            · intro hq
              obtain ⟨st, hst⟩ := Dict.get?_of_mem_keys hq
              obtain ⟨w, w1, -⟩ := hwritten q st hst
              exact Dict.mem_keys_of_get? w1
          · intro q w' hnone hw' t a hlv
            have hex : ∃ s, (t, s) ∈ c := by
              obtain ⟨p, hp, hpt⟩ := (hc.times t).1 (by
                by_contra hno
                rw [← hc.vals, cacheGet_none.2 hno] at hlv
                cases hlv)
              obtain ⟨⟨t', s⟩, hm, e⟩ := List.mem_map.1 ((hc.times t).2 ⟨p, hp, hpt⟩)
              dsimp only at e
              subst e
              exact ⟨s, hm⟩
            obtain ⟨s, hmc⟩ := hex
            rw [← hlast t s q hmc] at hlv
            have hqk : q ∈ Dict.keys stk := (n2 s ((hstates s).2 ⟨t, hmc⟩) q).2 (Dict.mem_keys_of_get? hlv)
            obtain ⟨st, hst⟩ := Dict.get?_of_mem_keys hqk
            obtain ⟨hd, ⟨s', hs', hg⟩, d1, d2, d3, -⟩ := n4 q st hst
            obtain ⟨t'', hm''⟩ := (hstates s').1 hs'
            obtain ⟨w, w1, -, -, w5, -⟩ := hwritten q st hst
            rw [w1] at hw'
            injection hw' with hw'
            subst hw'
            rw [hlast t s q hmc] at hlv
            rw [hlast t'' s' q hm''] at hg
            rw [w5 (by rw [hvars2]; exact hnone), d3]
            exact (hreg.1 q t'' t hd a hg hlv).2.2
          · rw [hkeep.1.timeVar, ← hf2]
            exact hx
          · intro x hx'
            have := e5 x hx'
            rw [hx] at this
            injection this with this
            exact this.symm
          · intro hnone
            rcases e6 _ hx with h' | ⟨-, h'⟩
            · rw [hnone] at h'
              cases h'
            · injection h' with h1 h2
              rw [← hL]
              exact ⟨h1, h2⟩
          · intro hus j t hj
            have hjl : j < (L.map (·.1)).length := (List.getElem?_eq_some_iff.1 hj).1
            refine ⟨fileTime us deltas f1.timeVar t, ?_, ?_⟩
            · rw [htimes3, ← hf2]
              show (if _ then _ else _) = _
              rw [← e1, if_pos (by omega), Nat.add_sub_cancel_left, hj]
              rfl
            · obtain ⟨hu, hd⟩ := hv.time us' ref hx
              subst hu
              unfold fileTime
              rw [hx]
              by_cases hdel : deltas = true
              · rw [if_pos hdel, hd hdel]
                have := timeNumber_trunc hus 0 t
                simpa using this
              · rw [if_neg hdel]
                have := timeNumber_trunc hus ref t
                simpa using this

end Verif

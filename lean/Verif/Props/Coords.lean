import Verif.Spec.Coords
import Verif.Props.SteppersOver
import Verif.Lemmas.DataArray
import Verif.Spec.Demo
/-!
# C89: coordinates of DataArrays
-/

namespace Verif

theorem get?_filterMap_keys {α β : Type} (h : String → α → Option β) {d : Dict α} (hd : d.keys.Nodup) (k : String) :
    Dict.get? (d.filterMap fun kv => (h kv.1 kv.2).map fun v => (kv.1, v)) k = (d.get? k).bind (h k) := by
  induction d with
  | nil => rfl
  | cons kv d ih =>
    obtain ⟨q, v⟩ := kv
    rw [Dict.keys_cons, List.nodup_cons] at hd
    have ih := ih hd.2
    rw [List.filterMap_cons, Dict.get?_cons]
    by_cases e : q = k
    · subst e
      rw [if_pos rfl]
      have hn : Dict.get? d q = none := (Dict.get?_eq_none_iff d q).2 hd.1
      rw [hn] at ih
      cases hh : h q v with
      | none => simp only [hh, Option.map_none, Option.bind_some]; exact ih
      | some w => simp only [hh, Option.map_some, Option.bind_some]; rw [Dict.get?_cons, if_pos rfl]
    · rw [if_neg e]
      cases hh : h q v with
      | none => simp only [Option.map_none]; exact ih
      | some w => simp only [Option.map_some]; rw [Dict.get?_cons, if_neg e]; exact ih

namespace CArray

theorem get?_joined {a : CArray} (ha : a.coords.keys.Nodup) (b : CArray) (d : String) :
    (joined a b).get? d = (a.coords.get? d).bind fun l => (b.coords.get? d).bind fun m =>
      if m = l then none else some (l.filter (· ∈ m)) := by
  rw [← get?_filterMap_keys (fun d l => (b.coords.get? d).bind fun m =>
      if m = l then none else some (l.filter (· ∈ m))) ha d]
  unfold joined
  congr 2
  funext dl
  cases b.coords.get? dl.1 with
  | none => rfl
  | some m =>
    dsimp only [Option.bind_some]
    by_cases e : m = dl.2
    · rw [if_pos e, if_pos e]; rfl
    · rw [if_neg e, if_neg e]; rfl

theorem joined_nil_iff {a : CArray} (ha : a.coords.keys.Nodup) (b : CArray) :
    joined a b = [] ↔ ∀ d l m, a.coords.get? d = some l → b.coords.get? d = some m → m = l := by
  constructor
  · intro h d l m h1 h2
    have := get?_joined ha b d
    rw [h, h1, h2] at this
    by_contra e
    simp only [Option.bind_some, if_neg e] at this
    cases this
  · intro h
    cases hj : joined a b with
    | nil => rfl
    | cons kv rest =>
      exfalso
      obtain ⟨d, j⟩ := kv
      have := get?_joined ha b d
      rw [hj, Dict.get?_cons, if_pos rfl] at this
      cases h1 : a.coords.get? d with
      | none => rw [h1] at this; cases this
      | some l =>
        cases h2 : b.coords.get? d with
        | none => rw [h1, h2] at this; cases this
        | some m =>
          rw [h1, h2] at this
          simp only [Option.bind_some, if_pos (h d l m h1 h2)] at this
          cases this

theorem get?_mergeCoords (x y : Dict (List Rat)) (d : String) :
    (mergeCoords x y).get? d = (x.get? d).or (y.get? d) := by
  unfold mergeCoords
  rw [Dict.get?_append]
  cases hx : x.get? d with
  | some l => rfl
  | none =>
    simp only [Option.none_or]
    have hx' := (Dict.get?_eq_none_iff x d).1 hx
    clear hx
    induction y with
    | nil => rfl
    | cons kv y ih =>
      obtain ⟨q, l⟩ := kv
      rw [List.filter_cons, Dict.get?_cons]
      by_cases hq : q ∈ x.keys
      · have : ¬ (decide (q ∉ x.keys) = true) := by simpa using hq
        rw [if_neg this, if_neg (fun e : q = d => hx' (e ▸ hq))]
        exact ih
      · have : decide (q ∉ x.keys) = true := by simpa using hq
        rw [if_pos this, Dict.get?_cons]
        by_cases e : q = d
        · rw [if_pos e, if_pos e]
        · rw [if_neg e, if_neg e]; exact ih

theorem mergeCoords_nodup {x y : Dict (List Rat)} (hx : x.keys.Nodup) (hy : y.keys.Nodup) :
    (mergeCoords x y).keys.Nodup := by
  unfold mergeCoords Dict.keys
  rw [List.map_append, List.nodup_append]
  refine ⟨hx, ?_, ?_⟩
  · exact List.Nodup.sublist (List.filter_sublist.map _) hy
  · intro d hd e he h
    subst h
    obtain ⟨kv, hkv, rfl⟩ := List.mem_map.1 he
    have := (List.mem_filter.1 hkv).2
    exact of_decide_eq_true this hd

theorem keys_reindex (a : CArray) (J : Dict (List Rat)) : (a.reindex J).coords.keys = a.coords.keys := by
  unfold reindex Dict.keys
  simp

theorem get?_reindex (a : CArray) (J : Dict (List Rat)) (d : String) :
    (a.reindex J).coords.get? d = (a.coords.get? d).map fun l => (J.get? d).getD l := by
  unfold reindex
  dsimp only
  generalize a.coords = c
  induction c with
  | nil => rfl
  | cons kv c ih =>
    obtain ⟨q, l⟩ := kv
    rw [List.map_cons, Dict.get?_cons, Dict.get?_cons]
    by_cases e : q = d
    · subst e; rw [if_pos rfl, if_pos rfl]; rfl
    · rw [if_neg e, if_neg e]; exact ih

theorem len_reindex (a : CArray) (J : Dict (List Rat)) {d : String} (hd : d ∈ a.da.dims) :
    (a.reindex J).da.len d = ((J.get? d).map List.length).getD (a.da.len d) :=
  DataArray.named_map (ix := fun d => ((J.get? d).map List.length).getD (a.da.len d)) hd

theorem wf_reindex {a : CArray} (ha : a.da.WF) (J : Dict (List Rat)) : (a.reindex J).da.WF := by
  refine ⟨?_, ha.2⟩
  show a.da.dims.length = (a.da.dims.map _).length
  rw [List.length_map]

theorem at_reindex (a : CArray) (J : Dict (List Rat)) (ix : String → Nat) :
    (a.reindex J).da.at' ix = a.da.at' fun d =>
      match J.get? d with
      | some l => ((a.coords.get? d).getD []).idxOf (l.getD (ix d) 0)
      | none => ix d := by
  show a.da.at' _ = a.da.at' _
  unfold DataArray.at'
  congr 1
  apply List.map_congr_left
  intro d hd
  show (match J.get? d with
      | some l => ((a.coords.get? d).getD []).idxOf (l.getD (DataArray.named a.da.dims (a.da.dims.map ix) d) 0)
      | none => DataArray.named a.da.dims (a.da.dims.map ix) d) = _
  rw [DataArray.named_map hd]

end CArray

theorem idxOf_getD_self {l : List Rat} (hl : l.Nodup) {i : Nat} (hi : i < l.length) : l.idxOf (l.getD i 0) = i := by
  rw [List.getD_eq_getElem?_getD, List.getElem?_eq_getElem hi, Option.getD_some]
  exact hl.idxOf_getElem i hi

theorem at_congr (a : DataArray) {ix jx : String → Nat} (h : ∀ d ∈ a.dims, ix d = jx d) : a.at' ix = a.at' jx := by
  unfold DataArray.at'
  rw [List.map_congr_left h]

/-- What an operation on DataArrays without coordinates does, for `binary_by_label`. -/
def Pointwise (F : DataArray → DataArray → Except Err DataArray) (f : Rat → Rat → Rat) : Prop :=
  ∀ a b : DataArray, a.WF → b.WF →
    (SameLengths a b → ∃ r, F a b = .ok r ∧ r.WF ∧ r.attrs = a.attrs ∧
      r.dims = a.dims ++ b.dims.filter (fun d => d ∉ a.dims) ∧
      (∀ d ∈ a.dims, r.len d = a.len d) ∧ (∀ d ∈ b.dims, r.len d = b.len d) ∧
      ∀ ix, r.at' ix = f (a.at' ix) (b.at' ix)) ∧
    (¬ SameLengths a b → F a b = .error .valueError)

theorem add_pointwise : Pointwise DataArray.add (· + ·) := by
  intro a b ha hb
  obtain ⟨h1, h2⟩ := binop_spec (· + ·) a b ha hb
  unfold DataArray.add
  refine ⟨fun h => ?_, fun h => by rw [h2 h]; rfl⟩
  obtain ⟨r, hr, hw, hd, hl, hl', hv⟩ := h1 h
  exact ⟨{ r with attrs := a.attrs }, by rw [hr]; rfl, hw, rfl, hd, hl, hl', hv⟩

theorem sub_pointwise : Pointwise DataArray.sub (· - ·) := by
  intro a b ha hb
  obtain ⟨h1, h2⟩ := binop_spec (· - ·) a b ha hb
  unfold DataArray.sub
  refine ⟨fun h => ?_, fun h => by rw [h2 h]; rfl⟩
  obtain ⟨r, hr, hw, hd, hl, hl', hv⟩ := h1 h
  exact ⟨{ r with attrs := a.attrs }, by rw [hr]; rfl, hw, rfl, hd, hl, hl', hv⟩

/-- The labels of a dimension are as many as its positions, and it is a dimension of the array. -/
theorem CArray.WF.labels {a : CArray} (ha : a.WF) {d : String} {l : List Rat} (h : a.coords.get? d = some l) :
    d ∈ a.da.dims ∧ l.length = a.da.len d := ha.2.2 d l (Dict.mem_of_get? h)

theorem sharedLabels_nodup {a b : CArray} (hda : a.Distinct) (hdb : b.Distinct) (d : String) (l : List Rat)
    (h : sharedLabels (a.coords.get? d) (b.coords.get? d) = some l) : l.Nodup := by
  cases h3 : a.coords.get? d with
  | none => rw [h3] at h; exact hdb d l h
  | some l' =>
    cases h4 : b.coords.get? d with
    | none => rw [h3, h4] at h; cases h; exact hda d _ h3
    | some m => rw [h3, h4] at h; cases h; exact (hda d _ h3).filter _

/-- The result of an operation on labelled arrays, see `add_by_label`. -/
theorem binary_by_label {F : DataArray → DataArray → Except Err DataArray} {f : Rat → Rat → Rat} (hF : Pointwise F f)
    {a b : CArray} (ha : a.WF) (hb : b.WF) (hda : a.Distinct) (hdb : b.Distinct) :
    (a.Fits b → ∃ r, CArray.binary F a b = .ok r ∧ r.WF ∧ r.Distinct ∧ r.da.attrs = a.da.attrs ∧
      r.da.dims = a.da.dims ++ b.da.dims.filter (fun d => d ∉ a.da.dims) ∧
      (∀ d, r.coords.get? d = sharedLabels (a.coords.get? d) (b.coords.get? d)) ∧
      ∀ ix, r.da.InBounds ix →
        r.da.at' ix = f (a.da.at' (atLabel a.coords r.coords ix)) (b.da.at' (atLabel b.coords r.coords ix))) ∧
    (¬ a.Fits b → CArray.binary F a b = .error .valueError) := by
  unfold CArray.binary
  by_cases hj : CArray.joined a b = []
  · rw [if_pos hj]
    have hsame := (CArray.joined_nil_iff ha.2.1 b).1 hj
    have hfit : a.Fits b ↔ SameLengths a.da b.da := by
      constructor
      · intro h d h1 h2
        rcases h d h1 h2 with h | ⟨h3, h4⟩
        · exact h
        · obtain ⟨l, hl⟩ := Dict.get?_of_mem_keys h3
          obtain ⟨m, hm⟩ := Dict.get?_of_mem_keys h4
          have := hsame d l m hl hm
          subst this
          rw [← (ha.labels hl).2, ← (hb.labels hm).2]
      · intro h d h1 h2
        exact .inl (h d h1 h2)
    obtain ⟨h1, h2⟩ := hF a.da b.da ha.1 hb.1
    refine ⟨fun h => ?_, fun h => by rw [h2 (fun h' => h (hfit.2 h'))]; rfl⟩
    obtain ⟨r, hr, hw, hat, hd, hl, hl', hv⟩ := h1 (hfit.1 h)
    have hlab : ∀ d, (CArray.mergeCoords a.coords b.coords).get? d =
        sharedLabels (a.coords.get? d) (b.coords.get? d) := by
      intro d
      rw [CArray.get?_mergeCoords]
      cases h3 : a.coords.get? d with
      | none => cases h4 : b.coords.get? d <;> rfl
      | some l =>
        cases h4 : b.coords.get? d with
        | none => rfl
        | some m =>
          have := hsame d l m h3 h4
          subst this
          show some m = some (m.filter (· ∈ m))
          rw [List.filter_eq_self.2 (fun x hx => by simpa using hx)]
    have hnd := CArray.mergeCoords_nodup ha.2.1 hb.2.1
    have hlen : ∀ d l, (CArray.mergeCoords a.coords b.coords).get? d = some l → d ∈ r.dims ∧ l.length = r.len d := by
      intro d l hdl
      rw [CArray.get?_mergeCoords] at hdl
      cases h3 : a.coords.get? d with
      | some l' =>
        rw [h3] at hdl
        cases hdl
        obtain ⟨h5, h6⟩ := ha.labels h3
        refine ⟨by rw [hd]; exact List.mem_append_left _ h5, ?_⟩
        rw [h6]; exact (hl d h5).symm
      | none =>
        rw [h3, Option.none_or] at hdl
        obtain ⟨h5, h6⟩ := hb.labels hdl
        refine ⟨?_, by rw [h6]; exact (hl' d h5).symm⟩
        rw [hd]
        by_cases h7 : d ∈ a.da.dims
        · exact List.mem_append_left _ h7
        · exact List.mem_append_right _ (List.mem_filter.2 ⟨h5, by simpa using h7⟩)
    refine ⟨⟨r, CArray.mergeCoords a.coords b.coords⟩, by rw [hr]; rfl,
      ⟨hw, hnd, fun d l hdl => hlen d l (Dict.get?_of_mem hnd hdl)⟩,
      fun d l hdl => sharedLabels_nodup hda hdb d l ((hlab d).symm.trans hdl), hat, hd, hlab, ?_⟩
    · intro ix hix
      have hix := (DataArray.inBounds_iff hw ix).1 hix
      show r.at' ix = _
      rw [hv ix]
      congr 1
      · apply at_congr
        intro d hdd
        have hlt : ix d < a.da.len d := by
          rw [← hl d hdd]
          exact hix d (by rw [hd]; exact List.mem_append_left _ hdd)
        unfold atLabel
        dsimp only
        rw [CArray.get?_mergeCoords]
        cases h3 : a.coords.get? d with
        | none => rfl
        | some l =>
          dsimp only [Option.some_or]
          rw [idxOf_getD_self (hda d l h3) (by rw [(ha.labels h3).2]; exact hlt)]
      · apply at_congr
        intro d hdd
        have hlt : ix d < b.da.len d := by
          rw [← hl' d hdd]
          apply hix d
          rw [hd]
          by_cases h7 : d ∈ a.da.dims
          · exact List.mem_append_left _ h7
          · exact List.mem_append_right _ (List.mem_filter.2 ⟨hdd, by simpa using h7⟩)
        unfold atLabel
        dsimp only
        rw [CArray.get?_mergeCoords]
        cases h4 : b.coords.get? d with
        | none => rfl
        | some m =>
          have h5 : (a.coords.get? d).or (some m) = some m := by
            cases h3 : a.coords.get? d with
            | none => rfl
            | some l => rw [hsame d l m h3 h4]; rfl
          rw [h5]
          dsimp only
          rw [idxOf_getD_self (hdb d m h4) (by rw [(hb.labels h4).2]; exact hlt)]
  · rw [if_neg hj]
    have hrep : ¬ CArray.Repeated a b := by
      rintro ⟨d, -, h | h⟩
      · apply h
        cases h3 : a.coords.get? d with
        | none => exact List.nodup_nil
        | some l => exact hda d l h3
      · apply h
        cases h3 : b.coords.get? d with
        | none => exact List.nodup_nil
        | some l => exact hdb d l h3
    rw [if_neg hrep]
    dsimp only
    have hJ := CArray.get?_joined ha.2.1 b
    generalize CArray.joined a b = J at hJ
    have hla : ∀ d, (a.reindex J).coords.get? d = (a.coords.get? d).map fun l => (J.get? d).getD l :=
      CArray.get?_reindex a J
    have hlb : ∀ d, (b.reindex J).coords.get? d = (b.coords.get? d).map fun l => (J.get? d).getD l :=
      CArray.get?_reindex b J
    -- the labels of a dimension after alignment
    have hJn : ∀ d, a.coords.get? d = none ∨ b.coords.get? d = none → J.get? d = none := by
      rintro d (h | h)
      · rw [hJ, h]; rfl
      · rw [hJ, h]; cases a.coords.get? d <;> rfl
    have hJs : ∀ d l m, a.coords.get? d = some l → b.coords.get? d = some m →
        (J.get? d).getD l = l.filter (· ∈ m) ∧ (J.get? d).getD m = l.filter (· ∈ m) := by
      intro d l m h1 h2
      rw [hJ, h1, h2]
      by_cases e : m = l
      · subst e
        simp only [Option.bind_some, if_true, Option.getD_none]
        rw [List.filter_eq_self.2 (fun x hx => by simpa using hx)]
        exact ⟨rfl, rfl⟩
      · simp only [Option.bind_some, if_neg e, Option.getD_some]
        exact ⟨trivial, trivial⟩
    have hJl : ∀ d j, J.get? d = some j → ∃ l m, a.coords.get? d = some l ∧ b.coords.get? d = some m := by
      intro d j hj
      cases h1 : a.coords.get? d with
      | none => rw [hJn d (.inl h1)] at hj; cases hj
      | some l =>
        cases h2 : b.coords.get? d with
        | none => rw [hJn d (.inr h2)] at hj; cases hj
        | some m => exact ⟨l, m, rfl, rfl⟩
    have hlena : ∀ d ∈ a.da.dims, ∀ l, a.coords.get? d = some l → (a.reindex J).da.len d = ((J.get? d).getD l).length := by
      intro d hd l hl
      rw [CArray.len_reindex a J hd]
      cases J.get? d with
      | none => exact (ha.labels hl).2.symm
      | some j => rfl
    have hlenb : ∀ d ∈ b.da.dims, ∀ l, b.coords.get? d = some l → (b.reindex J).da.len d = ((J.get? d).getD l).length := by
      intro d hd l hl
      rw [CArray.len_reindex b J hd]
      cases J.get? d with
      | none => exact (hb.labels hl).2.symm
      | some j => rfl
    have hfit : a.Fits b ↔ SameLengths (a.reindex J).da (b.reindex J).da := by
      constructor
      · intro h d h1 h2
        have h1 : d ∈ a.da.dims := h1
        have h2 : d ∈ b.da.dims := h2
        cases h3 : a.coords.get? d with
        | none =>
          rw [CArray.len_reindex a J h1, CArray.len_reindex b J h2, hJn d (.inl h3)]
          rcases h d h1 h2 with h | ⟨h5, -⟩
          · exact h
          · exact absurd h5 ((Dict.get?_eq_none_iff _ _).1 h3)
        | some l =>
          cases h4 : b.coords.get? d with
          | none =>
            rw [CArray.len_reindex a J h1, CArray.len_reindex b J h2, hJn d (.inr h4)]
            rcases h d h1 h2 with h | ⟨-, h5⟩
            · exact h
            · exact absurd h5 ((Dict.get?_eq_none_iff _ _).1 h4)
          | some m =>
            rw [hlena d h1 l h3, hlenb d h2 m h4, (hJs d l m h3 h4).1, (hJs d l m h3 h4).2]
      · intro h d h1 h2
        have h' := h d h1 h2
        cases h3 : a.coords.get? d with
        | none =>
          rw [CArray.len_reindex a J h1, CArray.len_reindex b J h2, hJn d (.inl h3)] at h'
          exact .inl h'
        | some l =>
          cases h4 : b.coords.get? d with
          | none =>
            rw [CArray.len_reindex a J h1, CArray.len_reindex b J h2, hJn d (.inr h4)] at h'
            exact .inl h'
          | some m => exact .inr ⟨Dict.mem_keys_of_get? h3, Dict.mem_keys_of_get? h4⟩
    obtain ⟨h1, h2⟩ := hF (a.reindex J).da (b.reindex J).da (CArray.wf_reindex ha.1 J) (CArray.wf_reindex hb.1 J)
    refine ⟨fun h => ?_, fun h => by rw [h2 (fun h' => h (hfit.2 h'))]; rfl⟩
    obtain ⟨r, hr, hw, hat, hd, hl, hl', hv⟩ := h1 (hfit.1 h)
    have hd : r.dims = a.da.dims ++ b.da.dims.filter (fun d => d ∉ a.da.dims) := hd
    have hmema : ∀ d ∈ a.da.dims, d ∈ r.dims := fun d h => by rw [hd]; exact List.mem_append_left _ h
    have hmemb : ∀ d ∈ b.da.dims, d ∈ r.dims := by
      intro d h5
      rw [hd]
      by_cases h7 : d ∈ a.da.dims
      · exact List.mem_append_left _ h7
      · exact List.mem_append_right _ (List.mem_filter.2 ⟨h5, by simpa using h7⟩)
    have hlab : ∀ d, (CArray.mergeCoords (a.reindex J).coords (b.reindex J).coords).get? d =
        sharedLabels (a.coords.get? d) (b.coords.get? d) := by
      intro d
      rw [CArray.get?_mergeCoords, hla, hlb]
      cases h3 : a.coords.get? d with
      | none =>
        cases h4 : b.coords.get? d with
        | none => rfl
        | some m => rw [hJn d (.inl h3)]; rfl
      | some l =>
        cases h4 : b.coords.get? d with
        | none => rw [hJn d (.inr h4)]; rfl
        | some m =>
          show some ((J.get? d).getD l) = some (l.filter (· ∈ m))
          rw [(hJs d l m h3 h4).1]
    have hlen : ∀ d l, sharedLabels (a.coords.get? d) (b.coords.get? d) = some l →
        d ∈ r.dims ∧ l.length = r.len d := by
      intro d l hdl
      cases h3 : a.coords.get? d with
      | none =>
        rw [h3] at hdl
        have hdl : b.coords.get? d = some l := hdl
        have h5 := (hb.labels hdl).1
        refine ⟨hmemb d h5, ?_⟩
        rw [hl' d h5, hlenb d h5 l hdl, hJn d (.inl h3)]; rfl
      | some l' =>
        have h5 := (ha.labels h3).1
        refine ⟨hmema d h5, ?_⟩
        rw [hl d h5, hlena d h5 l' h3]
        cases h4 : b.coords.get? d with
        | none => rw [h3, h4] at hdl; cases hdl; rw [hJn d (.inr h4)]; rfl
        | some m => rw [h3, h4] at hdl; cases hdl; rw [(hJs d l' m h3 h4).1]
    have hnd : (CArray.mergeCoords (a.reindex J).coords (b.reindex J).coords).keys.Nodup :=
      CArray.mergeCoords_nodup (by rw [CArray.keys_reindex]; exact ha.2.1) (by rw [CArray.keys_reindex]; exact hb.2.1)
    refine ⟨⟨r, CArray.mergeCoords (a.reindex J).coords (b.reindex J).coords⟩, by rw [hr]; rfl,
      ⟨hw, hnd, fun d l hdl => hlen d l ((hlab d).symm.trans (Dict.get?_of_mem hnd hdl))⟩,
      fun d l hdl => sharedLabels_nodup hda hdb d l ((hlab d).symm.trans hdl), hat, hd, hlab, ?_⟩
    intro ix hix
    have hix := (DataArray.inBounds_iff hw ix).1 hix
    show r.at' ix = _
    rw [hv ix, CArray.at_reindex, CArray.at_reindex]
    congr 1
    · apply at_congr
      intro d hdd
      unfold atLabel
      dsimp only
      rw [hlab]
      cases h3 : a.coords.get? d with
      | none => rw [hJn d (.inl h3)]
      | some l =>
        cases h4 : b.coords.get? d with
        | none =>
          rw [hJn d (.inr h4)]
          have hlt := hix d (hmema d hdd)
          rw [← (hlen d l (by rw [h3, h4]; rfl)).2] at hlt
          exact (idxOf_getD_self (hda d l h3) hlt).symm
        | some m =>
          have h5 := (hJs d l m h3 h4).1
          have hlt := hix d (hmema d hdd)
          rw [← (hlen d _ (by rw [h3, h4]; rfl)).2] at hlt
          show (match J.get? d with
            | some j => ((some l).getD []).idxOf (j.getD (ix d) 0)
            | none => ix d) = l.idxOf ((l.filter (· ∈ m)).getD (ix d) 0)
          rw [← h5] at hlt ⊢
          cases hj : J.get? d with
          | some j => rfl
          | none =>
            rw [hj] at hlt
            exact (idxOf_getD_self (hda d l h3) hlt).symm
    · apply at_congr
      intro d hdd
      unfold atLabel
      dsimp only
      rw [hlab]
      cases h4 : b.coords.get? d with
      | none =>
        rw [hJn d (.inr h4)]
      | some m =>
        cases h3 : a.coords.get? d with
        | none =>
          rw [hJn d (.inl h3)]
          have hlt := hix d (hmemb d hdd)
          rw [← (hlen d m (by rw [h3, h4]; rfl)).2] at hlt
          exact (idxOf_getD_self (hdb d m h4) hlt).symm
        | some l =>
          have h5 := (hJs d l m h3 h4).2
          have hlt := hix d (hmemb d hdd)
          rw [← (hlen d _ (by rw [h3, h4]; rfl)).2] at hlt
          show (match J.get? d with
            | some j => ((some m).getD []).idxOf (j.getD (ix d) 0)
            | none => ix d) = m.idxOf ((l.filter (· ∈ m)).getD (ix d) 0)
          rw [← h5] at hlt ⊢
          cases hj : J.get? d with
          | some j => rfl
          | none =>
            rw [hj] at hlt
            exact (idxOf_getD_self (hdb d m h4) hlt).symm

/-- **C89, addition is by label.**  Adding DataArrays with coordinates raises ValueError unless
shared dimensions have equal lengths or labels to match them by.  The result has the labels that
both operands have, in the order of the left one (those of one operand where only one has
labels), and at each of its positions the sum of the operands' values at the labels of that
position. -/
theorem add_by_label {a b : CArray} (ha : a.WF) (hb : b.WF) (hda : a.Distinct) (hdb : b.Distinct) :
    (a.Fits b → ∃ r, a.add b = .ok r ∧ r.WF ∧ r.Distinct ∧ r.da.attrs = a.da.attrs ∧
      r.da.dims = a.da.dims ++ b.da.dims.filter (fun d => d ∉ a.da.dims) ∧
      (∀ d, r.coords.get? d = sharedLabels (a.coords.get? d) (b.coords.get? d)) ∧
      ∀ ix, r.da.InBounds ix →
        r.da.at' ix = a.da.at' (atLabel a.coords r.coords ix) + b.da.at' (atLabel b.coords r.coords ix)) ∧
    (¬ a.Fits b → a.add b = .error .valueError) :=
  binary_by_label add_pointwise ha hb hda hdb

/-- **C89, subtraction is by label.** -/
theorem sub_by_label {a b : CArray} (ha : a.WF) (hb : b.WF) (hda : a.Distinct) (hdb : b.Distinct) :
    (a.Fits b → ∃ r, a.sub b = .ok r ∧ r.WF ∧ r.Distinct ∧ r.da.attrs = a.da.attrs ∧
      r.da.dims = a.da.dims ++ b.da.dims.filter (fun d => d ∉ a.da.dims) ∧
      (∀ d, r.coords.get? d = sharedLabels (a.coords.get? d) (b.coords.get? d)) ∧
      ∀ ix, r.da.InBounds ix →
        r.da.at' ix = a.da.at' (atLabel a.coords r.coords ix) - b.da.at' (atLabel b.coords r.coords ix)) ∧
    (¬ a.Fits b → a.sub b = .error .valueError) :=
  binary_by_label sub_pointwise ha hb hda hdb

namespace Demo

/-- Values along one dimension, in kelvin, with labels. -/
def line (d : String) (vals labels : List Rat) : CArray :=
  ⟨{ dims := [d], arr := { shape := [vals.length], get := fun ix => vals.getD (ix.headD 0) 0 },
     attrs := [("units", "K")] }, [(d, labels)]⟩

theorem line_wf {d : String} {vals labels : List Rat} (h : labels.length = vals.length) : (line d vals labels).WF := by
  refine ⟨⟨rfl, by simp [line]⟩, by simp [line, Dict.keys], ?_⟩
  intro e l hl
  simp only [line, List.mem_singleton, Prod.mk.injEq] at hl
  obtain ⟨rfl, rfl⟩ := hl
  refine ⟨by simp [line], ?_⟩
  rw [h]
  simp [line, DataArray.len, DataArray.named]

theorem line_distinct {d : String} {vals labels : List Rat} (h : labels.Nodup) : (line d vals labels).Distinct := by
  intro e l hl
  simp only [line, Dict.get?_cons] at hl
  by_cases hd : d = e
  · rw [if_pos hd] at hl; cases hl; exact h
  · rw [if_neg hd] at hl; cases hl

/-- Non-vacuity of `add_by_label`: lines over the latitudes 10, 20, 30 and 30, 20, 40 share 20
and 30, where their sums are 2 + 200 and 3 + 100. -/
example : (line "lat" [1, 2, 3] [10, 20, 30]).WF ∧ (line "lat" [100, 200, 400] [30, 20, 40]).WF ∧
    (line "lat" [1, 2, 3] [10, 20, 30]).Distinct ∧ (line "lat" [100, 200, 400] [30, 20, 40]).Distinct ∧
    (line "lat" [1, 2, 3] [10, 20, 30]).Fits (line "lat" [100, 200, 400] [30, 20, 40]) ∧
    Exc.test ((line "lat" [1, 2, 3] [10, 20, 30]).add (line "lat" [100, 200, 400] [30, 20, 40])) (fun r =>
      decide (r.coords = [("lat", [20, 30])] ∧ r.da.arr.shape = [2] ∧ r.da.arr.get [0] = 202 ∧
        r.da.arr.get [1] = 103)) = true :=
  ⟨line_wf rfl, line_wf rfl, line_distinct (by decide +kernel), line_distinct (by decide +kernel),
    fun _ h1 h2 => .inr ⟨h1, h2⟩, by decide +kernel⟩

/-- In place, such a sum raises instead. -/
example : Exc.failsWith ((line "lat" [1, 2, 3] [10, 20, 30]).iadd (line "lat" [100, 200, 400] [30, 20, 40]))
    .valueError = true := by decide +kernel

end Demo

end Verif

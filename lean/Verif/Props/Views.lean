import Verif.Lemmas.Views
import Verif.Props.UnitBlind
import Verif.Props.StepperTendencies
import Verif.Props.TimeDifferencing
import Verif.Spec.Demo
import Mathlib.Data.List.Induction
/-!
# C119: what `array_call` changes in the state
-/

namespace Verif

/-! ## The arrays given to `array_call` -/

theorem converted_iff {R : Registry} (hR : R.Faithful) {own units : String} :
    converted R own units = false ↔ SameUnit R own units := by
  unfold converted SameUnit
  cases ha : R.parse own with
  | none => simp
  | some a =>
    cases hb : R.parse units with
    | none => simp
    | some b =>
      simp only [Bool.not_eq_false', PintUnit.sameQty_iff, Option.some.injEq]
      constructor
      · rintro ⟨h1, h2⟩
        obtain ⟨h3, h4⟩ := hR own units a b ha hb h1 h2
        exact ⟨a, b, rfl, rfl, h1, h3, h4⟩
      · rintro ⟨_, _, rfl, rfl, h1, h3, h4⟩
        exact ⟨h1, by rw [h3, h4]⟩

theorem getArrayV_ok {R : Registry} (hR : R.Faithful) {a : DataArray} {units : String} {od : List String}
    {lens : Dict Nat} {v : VArray} (h : getArrayV R a units od lens = .ok v) :
    ∃ own, a.attrs.get? "units" = some own ∧
      ((SameUnit R own units ∧ getNumpyArrayV a od lens = .ok v) ∨ (¬ SameUnit R own units ∧ v.pos = none)) := by
  unfold getArrayV at h
  cases hu : a.attrs.get? "units" with
  | none => simp [hu] at h
  | some own =>
    simp only [hu] at h
    refine ⟨own, rfl, ?_⟩
    cases hq : a.toUnits R units with
    | error e => rw [hq] at h; cases e <;> simp at h
    | ok q =>
      simp only [hq] at h
      obtain ⟨w, hw, h⟩ := Exc.bind_ok_iff.1 h
      by_cases hs : SameUnit R own units
      · left
        refine ⟨hs, ?_⟩
        rw [(converted_iff hR).2 hs] at h
        cases h
        obtain ⟨own', hu', _, _, _, x, y, hx, hy, hcase⟩ := toUnits_ok hR hq
        rw [hu] at hu'
        cases hu'
        rcases hcase with ⟨rfl, _⟩ | ⟨hattr, hval⟩
        · exact hw
        · unfold DataArray.toUnits DataArray.dataArrayToUnits at hq
          obtain ⟨x', y', hx', hy', e1, e2, e3⟩ := hs
          rw [hx] at hx'; rw [hy] at hy'
          cases hx'; cases hy'
          have hsq : x.sameQty y = true := PintUnit.sameQty_iff.2 ⟨e1, by rw [e2, e3]⟩
          have h1 : R.unit own = .ok x := Registry.unit_ok.2 hx
          have h2 : R.unit units = .ok y := Registry.unit_ok.2 hy
          simp only [hu, h1, h2, Exc.ok_bind, hsq, if_true] at hq
          cases hq
          exact hw
      · right
        have hc : converted R own units = true := by
          cases hcv : converted R own units with
          | true => rfl
          | false => exact absurd ((converted_iff hR).1 hcv) hs
        rw [hc] at h
        cases h
        exact ⟨hs, rfl⟩

theorem getArrayV_arrs (R : Registry) (a : DataArray) (units : String) (od : List String) (lens : Dict Nat) :
    Exc.arrs (getArrayV R a units od lens) = getArray R a units od lens := by
  unfold getArrayV getArray
  cases a.attrs.get? "units" with
  | none => rfl
  | some own =>
    dsimp only
    cases a.toUnits R units with
    | error e => cases e <;> rfl
    | ok q =>
      dsimp only
      rw [← getNumpyArrayV_arrs]
      cases getNumpyArrayV q od lens with
      | error e => rfl
      | ok v => cases converted R own units <;> rfl

/-- An entry without the positions. -/
def Exc.entry : Except Err (String × String × VArray) → Except Err (String × NDArray)
  | .ok r => .ok (r.1, r.2.2.arr)
  | .error e => .error e

theorem rawInputV_entry (R : Registry) (copies : String → Bool) (state : State) (wild : List String) (lens : Dict Nat)
    (name : String) (p : QProps) :
    Exc.entry (rawInputV R copies state wild lens name p) = rawInput R state wild lens name p := by
  unfold rawInputV rawInput
  cases ensureDimsUnits p with
  | error e => rfl
  | ok du =>
    simp only [Exc.ok_bind]
    cases state.da name with
    | error e => rfl
    | ok a =>
      simp only [Exc.ok_bind]
      split
      · simp only [← getArrayV_arrs]
        cases getArrayV R a du.2 _ lens with
        | error e => rfl
        | ok v =>
          show Exc.entry (flattenWildcardDimsV _ _ _ _ >>= _) = (flattenWildcardDims v.arr _ _ >>= _)
          rw [← flattenV_arrs (copies name)]
          cases flattenWildcardDimsV (copies name) v _ _ <;> rfl
      · simp only [← getArrayV_arrs]
        cases getArrayV R a du.2 _ lens <;> rfl

theorem rawInputsV_arrays (R : Registry) (copies : String → Bool) (state : State) (wild : List String) (lens : Dict Nat)
    (props : PropDict) (out : Dict (String × VArray)) :
    (rawInputsV R copies state wild lens props out >>= fun r => .ok (r.mapVal (·.2.arr))) =
      rawInputs R state wild lens props (out.mapVal (·.2.arr)) := by
  induction props generalizing out with
  | nil => rfl
  | cons kv rest ih =>
    obtain ⟨n, p⟩ := kv
    unfold rawInputsV rawInputs
    rw [← rawInputV_entry R copies]
    cases rawInputV R copies state wild lens n p with
    | error e => rfl
    | ok r =>
      show (rawInputsV R copies state wild lens rest (out.set r.1 r.2) >>= _) = rawInputs R state wild lens rest _
      rw [ih]
      congr 1
      exact mapVal_set _ _ _ _

/-- **C119, the same arrays.**  `array_call` gets the same keys, shapes and values as in the model
without memory. -/
theorem views_same_arrays (R : Registry) (copies : String → Bool) (state : State) (props : PropDict) :
    (getNumpyArraysV R copies state props >>= fun r => .ok (r.mapVal (·.2.arr))) = getNumpyArrays R state props := by
  unfold getNumpyArraysV getNumpyArrays
  cases getWildcard state props with
  | error e => rfl
  | ok wl => exact rawInputsV_arrays R copies state _ _ props []

/-! ## Where their elements are -/

theorem mem_split_dims {dims wild : List String} (hs : "*" ∈ dims) (hc : dims.count "*" ≤ 1) {d : String} :
    d ∈ dims.take (dims.idxOf "*") ++ wild ++ dims.drop (dims.idxOf "*" + 1) ↔ d ∈ outDimsSpec dims wild := by
  have hmap : outDimsSpec dims wild = (dims.map fun d => if d = "*" then wild else [d]).flatten := by
    unfold outDimsSpec; rw [List.flatMap_def]
  have hf : ∀ l : List String, (l.map fun d => [d]).flatten = l := by
    intro l
    induction l with
    | nil => rfl
    | cons x l ih => rw [List.map_cons, List.flatten_cons, ih]; rfl
  rw [hmap, map_split_star hs hc, List.flatten_append, List.flatten_append, hf, hf, List.flatten_cons, List.flatten_nil,
    List.append_nil]

theorem mem_plain_dims {dims wild : List String} (hs : "*" ∉ dims) {d : String} : d ∈ outDimsSpec dims wild ↔ d ∈ dims := by
  have : outDimsSpec dims wild = dims := by
    unfold outDimsSpec
    induction dims with
    | nil => rfl
    | cons x l ih =>
      rw [List.flatMap_cons, if_neg (fun e => hs (by rw [e]; exact List.mem_cons_self)),
        ih (fun hh => hs (List.mem_cons_of_mem _ hh))]
      rfl
  rw [this]

/-- One array: whether it is a view, and where its elements are. -/
theorem rawInputV_ok {R : Registry} (hR : R.Faithful) {copies : String → Bool} {state : State} (hwf : state.WF)
    {wild : List String} {lens : Dict Nat} {kv : String × QProps} {r : String × String × VArray}
    {dims : List String} {units : String} {a : DataArray}
    (hd : kv.2.dims = some dims) (hu : kv.2.units = some units) (ha : Dict.get? state kv.1 = some (.da a))
    (hlens : ∀ d ∈ a.dims, lens.get? d = some (a.len d))
    (hsub : ∀ d ∈ a.dims, d ∈ dims ∨ ("*" ∈ dims ∧ d ∈ wild))
    (hstar : dims.count "*" ≤ 1) (hns : "*" ∉ a.dims)
    (h : rawInputV R copies state wild lens kv.1 kv.2 = .ok r) :
    r.1 = outName kv ∧ r.2.1 = kv.1 ∧
    (r.2.2.pos.isSome = true ↔ SharesMemory R copies wild (lenOr1 lens) kv a) ∧
    ∀ p, r.2.2.pos = some p → ∀ ix : String → Nat, (∀ d ∈ outDimsSpec dims wild, ix d < lenOr1 lens d) →
      p (specIndex dims wild (lenOr1 lens) ix) = a.dims.map ix := by
  unfold rawInputV at h
  obtain ⟨du, hdu, h1⟩ := Exc.bind_ok_iff.1 h
  obtain ⟨a', ha', h2⟩ := Exc.bind_ok_iff.1 h1
  obtain ⟨v, hv, h3⟩ := Exc.bind_ok_iff.1 h2
  clear h h1 h2
  rw [ensureDimsUnits_ok, hd, hu] at hdu
  obtain ⟨hdu1, hdu2⟩ := hdu
  injection hdu1 with hdu1
  injection hdu2 with hdu2
  rw [State.da_ok, ha] at ha'
  cases ha'
  cases h3
  rw [← hdu1, ← hdu2] at hv
  have hawf := hwf _ _ ha
  refine ⟨rfl, rfl, ?_⟩
  have hshare : ∀ own, a.attrs.get? "units" = some own → (SharesMemory R copies wild (lenOr1 lens) kv a ↔
      SameUnit R own units ∧ (∀ d ∈ outDimsSpec dims wild, d ∉ a.dims → lenOr1 lens d = 1) ∧
      ("*" ∈ dims → 2 ≤ wild.length → copies kv.1 = false)) := by
    intro own hown
    constructor
    · rintro ⟨dims', units', own', e1, e2, e3, e4⟩
      rw [hd] at e1; rw [hu] at e2; rw [hown] at e3
      cases e1; cases e2; cases e3
      exact e4
    · intro e4
      exact ⟨dims, units, own, hd, hu, hown, e4⟩
  split at hv
  · rename_i hs
    obtain ⟨v0, hv0, hflat⟩ := Exc.bind_ok_iff.1 hv
    obtain ⟨hsplit, hpre⟩ := split_at_idxOf hs
    have hmem : ∀ d ∈ a.dims, d ∈ dims.take (dims.idxOf "*") ++ wild ++ dims.drop (dims.idxOf "*" + 1) := by
      intro d hdm
      rcases hsub d hdm with h | ⟨_, h⟩
      · have hne : d ≠ "*" := fun e => hns (e ▸ hdm)
        rw [hsplit] at h
        simp only [List.mem_append, List.mem_cons] at h ⊢
        rcases h with h | h | h
        · simp [h]
        · exact absurd h hne
        · simp [h]
      · simp [h]
    have hplen : (dims.take (dims.idxOf "*")).length = dims.idxOf "*" := by
      rw [List.length_take]
      have := List.idxOf_lt_length_iff.2 hs
      omega
    obtain ⟨own, hown, hcase⟩ := getArrayV_ok hR hv0
    rw [hshare own hown, flat_isSome hflat]
    rcases hcase with ⟨hsu, hg⟩ | ⟨hsu, hg⟩
    · constructor
      · rw [view_isSome hawf hmem hg hlens]
        simp only [mem_split_dims hs hstar]
        constructor
        · rintro ⟨x, y⟩
          exact ⟨hsu, x, fun _ => y⟩
        · rintro ⟨_, x, y⟩
          exact ⟨x, y hs⟩
      · intro p hp ix hix
        unfold specIndex
        rw [map_split_star hs hstar]
        have hflat' : flattenWildcardDimsV (copies kv.1) v0 (dims.take (dims.idxOf "*")).length
            ((dims.take (dims.idxOf "*")).length + wild.length) = .ok v := by rw [hplen]; exact hflat
        exact flat_position hawf hmem hlens hg hflat' hp (fun d hdm => hix d ((mem_split_dims hs hstar).1 hdm))
    · have hnone : v.pos.isSome = true → False := by
        intro hh
        have := ((flat_isSome hflat).1 hh).1
        rw [hg] at this
        cases this
      constructor
      · constructor
        · rintro ⟨x, _⟩
          rw [hg] at x
          cases x
        · rintro ⟨x, _⟩
          exact absurd x hsu
      · intro p hp
        exact (hnone (by rw [hp]; rfl)).elim
  · rename_i hs
    have hmem : ∀ d ∈ a.dims, d ∈ dims := by
      intro d hdm
      rcases hsub d hdm with h | ⟨h, _⟩
      · exact h
      · exact absurd h hs
    have hmap : ∀ (c : Nat) (f : String → Nat), (dims.map fun d => if d = "*" then c else f d) = dims.map f := by
      intro c f
      apply List.map_congr_left
      intro d hdm; rw [if_neg]; rintro rfl; exact hs hdm
    obtain ⟨own, hown, hcase⟩ := getArrayV_ok hR hv
    rw [hshare own hown]
    rcases hcase with ⟨hsu, hg⟩ | ⟨hsu, hg⟩
    · constructor
      · rw [view_isSome hawf hmem hg hlens]
        simp only [mem_plain_dims hs]
        constructor
        · intro x
          exact ⟨hsu, x, fun h => absurd h hs⟩
        · rintro ⟨_, x, _⟩
          exact x
      · intro p hp ix hix
        unfold specIndex
        rw [hmap]
        exact view_position hawf hmem hlens hg hp (fun d hdm => hix d ((mem_plain_dims hs).2 hdm))
    · constructor
      · rw [hg]
        constructor
        · intro x; cases x
        · rintro ⟨x, _⟩
          exact absurd x hsu
      · intro p hp
        rw [hg] at hp
        cases hp

theorem rawInputsV_ok {R : Registry} {copies : String → Bool} {state : State} {wild : List String} {lens : Dict Nat}
    {props : PropDict} {out0 out : Dict (String × VArray)}
    (h : rawInputsV R copies state wild lens props out0 = .ok out) :
    (∀ kv ∈ props, ∃ r, rawInputV R copies state wild lens kv.1 kv.2 = .ok r) ∧
    (∀ k, k ∉ props.map outName → out.get? k = out0.get? k) ∧
    ((props.map outName).Nodup → ∀ kv ∈ props, ∀ r,
      rawInputV R copies state wild lens kv.1 kv.2 = .ok r → out.get? (outName kv) = some r.2) := by
  have hname : ∀ {kv : String × QProps} {r}, rawInputV R copies state wild lens kv.1 kv.2 = .ok r →
      r.1 = outName kv := by
    intro kv r hr
    unfold rawInputV at hr
    obtain ⟨du, _, hr⟩ := Exc.bind_ok_iff.1 hr
    obtain ⟨a', _, hr⟩ := Exc.bind_ok_iff.1 hr
    obtain ⟨arr, _, hr⟩ := Exc.bind_ok_iff.1 hr
    cases hr; rfl
  induction props generalizing out0 with
  | nil => cases h; simp
  | cons kv props ih =>
    obtain ⟨name, p⟩ := kv
    unfold rawInputsV at h
    obtain ⟨r, hr, h⟩ := Exc.bind_ok_iff.1 h
    have hrn := hname (kv := (name, p)) hr
    obtain ⟨h1, h2, h3⟩ := ih h
    refine ⟨?_, ?_, ?_⟩
    · intro kv hkv
      rcases List.mem_cons.1 hkv with rfl | hkv
      · exact ⟨r, hr⟩
      · exact h1 kv hkv
    · intro k hk
      simp only [List.map_cons, List.mem_cons, not_or] at hk
      rw [h2 k hk.2, Dict.get?_set_ne]
      rw [hrn]; exact fun e => hk.1 e.symm
    · intro hn kv hkv r' hr'
      rw [List.map_cons, List.nodup_cons] at hn
      rcases List.mem_cons.1 hkv with rfl | hkv
      · rw [hr] at hr'
        cases hr'
        rw [h2 _ hn.1, ← hrn]
        exact Dict.get?_set_self _ _ _
      · exact h3 hn.2 kv hkv r' hr'

/-- **C119, which arrays are views.**  For every requested quantity, `array_call` gets a view of the memory of the
quantity exactly if its units are the requested ones, every requested dimension it lacks has length 1,
and numpy need not copy to merge the dims matched by a wildcard.  The element of the view that stands for
named coordinates is the element of the quantity at these coordinates. -/
theorem views_explained {R : Registry} (hR : R.Faithful) {copies : String → Bool} {state : State} {props : PropDict}
    {raws : Dict (String × VArray)} (hwf : state.WF) (hsf : state.StarFree) (hone : OneStar props)
    (hkeys : (props.map outName).Nodup) (h : getNumpyArraysV R copies state props = .ok raws) :
    ∃ L, LenSpec (requested state props) L ∧ ∀ kv ∈ props, ∃ dims a v, kv.2.dims = some dims ∧
      Dict.get? state kv.1 = some (.da a) ∧ raws.get? (outName kv) = some (kv.1, v) ∧
      (v.pos.isSome = true ↔ SharesMemory R copies (wildSpec (requested state props)) L kv a) ∧
      ∀ p, v.pos = some p → ∀ ix : String → Nat,
        (∀ d ∈ outDimsSpec dims (wildSpec (requested state props)), ix d < L d) →
        p (specIndex dims (wildSpec (requested state props)) L ix) = a.dims.map ix := by
  have hg := views_same_arrays R copies state props
  rw [h] at hg
  obtain ⟨wl, hw, inv, hwild, _, _⟩ := getNumpyArrays_full hR hwf hsf hone hkeys hg.symm
  unfold getNumpyArraysV at h
  rw [hw] at h
  simp only [Exc.ok_bind] at h
  rw [hwild] at h
  obtain ⟨r1, r2, r3⟩ := rawInputsV_ok h
  refine ⟨lenOr1 wl.2, lenSpec_of_inv inv, ?_⟩
  intro kv hkv
  obtain ⟨dims, units, a, e1, e2, e3, e4, e5⟩ := inv.entry kv hkv
  obtain ⟨r, hr⟩ := r1 kv hkv
  have hout := r3 hkeys kv hkv r hr
  have hsub : ∀ d ∈ a.dims, d ∈ dims ∨ ("*" ∈ dims ∧ d ∈ wildSpec (requested state props)) := by
    intro d hd
    by_cases hin : d ∈ dims
    · exact Or.inl hin
    · right
      refine ⟨(e5 d hd).resolve_left hin, ?_⟩
      exact mem_wildSpec.2 ⟨(a, dims), mem_requested.2 ⟨kv, hkv, e3, e1⟩, hd, hin⟩
  obtain ⟨_, s1, s2, s3⟩ := rawInputV_ok hR hwf e1 e2 e3 e4 hsub (hone kv hkv dims e1) (hsf _ _ e3) hr
  refine ⟨dims, a, r.2.2, e1, e3, ?_, s2, s3⟩
  rw [hout, ← s1]

/-! ## What the changes do to the state -/

theorem Held.look_get? {h : Held} {m : Cells} {n : String} {l : Nat} (hl : h.refs.get? n = some l) :
    Dict.get? (h.look m) n = some (.da (m l)) := by
  unfold Held.look
  rw [Dict.get?_append, Dict.get?_mapVal, hl]
  rfl

theorem Held.refs_of_look {h : Held} {m : Cells} {n : String} {a : DataArray} (hl : Dict.get? (h.look m) n = some (.da a)) :
    ∃ l, h.refs.get? n = some l ∧ a = m l := by
  unfold Held.look at hl
  rw [Dict.get?_append, Dict.get?_mapVal] at hl
  cases hg : h.refs.get? n with
  | none =>
    rw [hg, Dict.get?_cons] at hl
    by_cases ht : "time" = n <;> simp [ht] at hl
  | some l =>
    rw [hg] at hl
    cases hl
    exact ⟨l, rfl, rfl⟩

theorem SameForm.refl (a : DataArray) : SameForm a a := ⟨rfl, rfl, rfl⟩

theorem SameForm.trans {a b c : DataArray} (h : SameForm a b) (h' : SameForm b c) : SameForm a c :=
  ⟨h.1.trans h'.1, h.2.1.trans h'.2.1, h.2.2.trans h'.2.2⟩

/-- A change alters only values. -/
theorem Poke.run_form (h : Held) (raws : Dict (String × VArray)) (m : Cells) (w : Poke) (k : Nat) :
    SameForm (m k) (w.run h raws m k) := by
  unfold Poke.run
  cases raws.get? w.key with
  | none => exact SameForm.refl _
  | some nv =>
    obtain ⟨n, v⟩ := nv
    dsimp only
    cases v.pos with
    | none => exact SameForm.refl _
    | some p =>
      cases h.refs.get? n with
      | none => exact SameForm.refl _
      | some l =>
        dsimp only
        by_cases e : k = l
        · subst e
          rw [if_pos rfl]
          exact ⟨rfl, rfl, rfl⟩
        · rw [if_neg e]
          exact SameForm.refl _

theorem pokes_form (h : Held) (raws : Dict (String × VArray)) (m : Cells) (ws : List Poke) (k : Nat) :
    SameForm (m k) (ws.foldl (Poke.run h raws) m k) := by
  induction ws generalizing m with
  | nil => exact SameForm.refl _
  | cons w ws ih => exact (Poke.run_form h raws m w k).trans (ih _)

theorem LenSpec.unique {qs : List (DataArray × List String)} {L L' : String → Nat} (h : LenSpec qs L) (h' : LenSpec qs L') :
    L = L' := by
  funext d
  by_cases hd : ∃ q ∈ qs, d ∈ q.1.dims
  · obtain ⟨q, hq, hd⟩ := hd
    rw [h.1 q hq d hd, h'.1 q hq d hd]
  · have : ∀ q ∈ qs, d ∉ q.1.dims := fun q hq hd' => hd ⟨q, hq, hd'⟩
    rw [h.2 d this, h'.2 d this]

/-- **C119.**  Changes that a component makes to the arrays it was given, at elements named by coordinates: the
value of a quantity of the state at named coordinates is afterwards that of the last change of this element
of a view of the quantity, and the value it had if there is none.  Dims, shapes and attributes stay. -/
theorem in_place_changes_explained {R : Registry} (hR : R.Faithful) {copies : String → Bool} {h : Held} {m : Cells}
    {props : PropDict} {raws : Dict (String × VArray)} (hwf : (h.look m).WF) (hsf : (h.look m).StarFree)
    (hone : OneStar props) (hkeys : (props.map outName).Nodup)
    (hraws : ∃ raws0, getNumpyArraysV R copies (h.look m) props = .ok raws0 ∧
      ∀ kv ∈ props, raws.get? (outName kv) = raws0.get? (outName kv))
    {L : String → Nat} (hL : LenSpec (requested (h.look m) props) L) (ws : List NamedWrite)
    (hws : ∀ w ∈ ws, w.Inside props (wildSpec (requested (h.look m) props)) L) (k : Nat) :
    let m' := (ws.map (·.poke (wildSpec (requested (h.look m) props)) L)).foldl (Poke.run h raws) m
    SameForm (m k) (m' k) ∧ ∀ ix : String → Nat,
      ((∀ w ∈ ws, ¬ w.Reaches R copies (wildSpec (requested (h.look m) props)) L h m k ix) →
        (m' k).at' ix = (m k).at' ix) ∧
      ∀ pre w post, ws = pre ++ w :: post → w.Reaches R copies (wildSpec (requested (h.look m) props)) L h m k ix →
        (∀ w' ∈ post, ¬ w'.Reaches R copies (wildSpec (requested (h.look m) props)) L h m k ix) →
        (m' k).at' ix = w.val := by
  obtain ⟨raws0, hraws0, hsame⟩ := hraws
  obtain ⟨L', hL', hex⟩ := views_explained hR hwf hsf hone hkeys hraws0
  cases hL.unique hL'
  generalize hW : wildSpec (requested (h.look m) props) = W at *
  -- one change
  have step : ∀ (w : NamedWrite), w.Inside props W L → ∀ m' : Cells, (∀ k, SameForm (m k) (m' k)) → ∀ ix : String → Nat,
      (w.Reaches R copies W L h m k ix → ((w.poke W L).run h raws m' k).at' ix = w.val) ∧
      (¬ w.Reaches R copies W L h m k ix → ((w.poke W L).run h raws m' k).at' ix = (m' k).at' ix) := by
    intro w hin m' hm' ix
    obtain ⟨hkv, hb⟩ := hin
    obtain ⟨dims, a, v, e1, e2, e3, e4, e5⟩ := hex w.kv hkv
    obtain ⟨l, hl, rfl⟩ := Held.refs_of_look e2
    have hget : raws.get? (w.poke W L).key = some (w.kv.1, v) := by
      show raws.get? (outName w.kv) = _
      rw [hsame w.kv hkv, e3]
    unfold Poke.run
    rw [hget]
    dsimp only
    rw [hl]
    cases hp : v.pos with
    | none =>
      refine ⟨?_, fun _ => rfl⟩
      rintro ⟨r1, r2, _⟩
      rw [hl] at r1
      cases r1
      have := e4.2 r2
      rw [hp] at this
      cases this
    | some p =>
      have hpos : p (w.poke W L).idx = (m l).dims.map w.ix := by
        have := e5 p hp w.ix (hb dims e1)
        unfold NamedWrite.poke
        rw [e1]
        exact this
      have hsh := e4.1 (by rw [hp]; rfl)
      dsimp only
      by_cases hkl : k = l
      · subst hkl
        rw [if_pos rfl, hpos]
        unfold DataArray.at' DataArray.put
        dsimp only
        rw [← (hm' k).1]
        constructor
        · rintro ⟨_, _, r3⟩
          rw [if_pos]
          · rfl
          · exact List.map_congr_left (fun d hd => (r3 d hd).symm)
        · intro hn
          rw [if_neg]
          intro he
          rw [List.map_inj_left] at he
          exact hn ⟨hl, hsh, fun d hd => (he d hd).symm⟩
      · rw [if_neg hkl]
        refine ⟨?_, fun _ => rfl⟩
        rintro ⟨r1, _⟩
        rw [hl] at r1
        cases r1
        exact absurd rfl hkl
  intro m'
  refine ⟨pokes_form h raws m _ k, ?_⟩
  intro ix
  simp only [m']
  clear m'
  induction ws using List.reverseRecOn with
  | nil =>
    refine ⟨fun _ => rfl, ?_⟩
    intro pre w post he
    simp at he
  | append_singleton ws w ih =>
    obtain ⟨ih1, ih2⟩ := ih (fun w hw => hws w (List.mem_append_left _ hw))
    obtain ⟨s1, s2⟩ := step w (hws w (by simp)) _ (fun k => pokes_form h raws m (ws.map (·.poke W L)) k) ix
    simp only [List.map_append, List.map_cons, List.map_nil, List.foldl_append, List.foldl_cons, List.foldl_nil] at ih1 ih2 ⊢
    constructor
    · intro hno
      rw [s2 (hno w (by simp))]
      exact ih1 (fun w' hw' => hno w' (List.mem_append_left _ hw'))
    · intro pre x post he hx hpost
      rcases List.eq_nil_or_concat post with rfl | ⟨post', y, rfl⟩
      · obtain ⟨_, rfl⟩ := List.append_singleton_inj.1 he
        exact s1 hx
      · rw [List.concat_eq_append] at he hpost
        rw [← List.cons_append, ← List.append_assoc] at he
        obtain ⟨he', rfl⟩ := List.append_singleton_inj.1 he
        rw [s2 (hpost w (by simp))]
        exact ih2 pre x post' he' hx (fun w' hw' => hpost w' (List.mem_append_left _ hw'))

/-! ## What the changes do to the results -/

/-- Two states that differ at most in values. -/
def SameForms (s s' : State) : Prop := ∀ n, Exc.Rel SameForm (s.da n) (s'.da n)

theorem look_sameForms {h : Held} {m m' : Cells} (hm : ∀ k, SameForm (m k) (m' k)) : SameForms (h.look m) (h.look m') := by
  intro n
  unfold State.da Held.look
  rw [Dict.get?_append, Dict.get?_append, Dict.get?_mapVal, Dict.get?_mapVal]
  cases h.refs.get? n with
  | none =>
    simp only [Option.map_none, Option.none_or, Dict.get?_cons]
    by_cases ht : "time" = n
    · simp only [if_pos ht]; rfl
    · simp only [if_neg ht]; rfl
  | some l => exact hm l

section
variable {state state' : State}

theorem matchLoop_sameForms (h : SameForms state state') (props : PropDict) (wild : List String) (lens : Dict Nat) :
    matchLoop state props wild lens = matchLoop state' props wild lens := by
  induction props generalizing wild lens with
  | nil => rfl
  | cons kv rest ih =>
    obtain ⟨n, p⟩ := kv
    unfold matchLoop
    congr 1
    funext du
    refine (h n).eq_bind ?_
    intro a b hab
    rw [hab.1, hab.2.1]
    congr 1
    funext lens'
    dsimp only
    split
    · rfl
    · exact ih _ _

theorem restore_sameForms (h : SameForms state state') (raw : Dict NDArray) (outP inP : PropDict)
    (ign : List String) (im : Bool) :
    restoreDataArrays raw outP state inP ign im = restoreDataArrays raw outP state' inP ign im := by
  unfold restoreDataArrays getWildcard
  rw [matchLoop_sameForms h]

theorem takeTracers_sameForms (h : SameForms state state') (g : Tracers) (i : Inst) (raw : Dict NDArray)
    (m : String) : takeTracers g i raw state m = takeTracers g i raw state' m := by
  unfold takeTracers
  cases i.packer with
  | none => rfl
  | some p =>
    unfold Packer.unpack
    simp only [restore_sameForms h]

end

/-- `array_call` sees the same as in the model without memory. -/
theorem prepareV_raw (R : Registry) (copies : String → Bool) (g : Tracers) (c : Class) (i : Inst) (state : State) :
    (prepareV R copies g c i state >>= fun r => .ok (asRaw r)) = prepare R g c i state := by
  unfold prepareV prepare
  cases checkInputs c.inProps state with
  | error e => rfl
  | ok u =>
    simp only [Exc.ok_bind]
    rw [← views_same_arrays R copies]
    cases getNumpyArraysV R copies state c.inProps with
    | error e => rfl
    | ok raws =>
      simp only [Exc.ok_bind]
      cases i.packer with
      | none =>
        simp only [Exc.ok_bind]
        cases Dict.get state "time" <;> rfl
      | some p =>
        dsimp only
        cases p.pack R g state with
        | error e => rfl
        | ok t =>
          simp only [Exc.ok_bind]
          cases Dict.get state "time" with
          | error e => rfl
          | ok tm =>
            show Except.ok (asRaw _) = Except.ok _
            unfold asRaw
            rw [mapVal_set]

theorem prepareV_error {R : Registry} {copies : String → Bool} {g : Tracers} {c : Class} {i : Inst} {state : State} {e : Err}
    (h : prepareV R copies g c i state = .error e) : prepare R g c i state = .error e := by
  rw [← prepareV_raw R copies, h]
  rfl

theorem prepareV_ok {R : Registry} {copies : String → Bool} {g : Tracers} {c : Class} {i : Inst} {state : State}
    {r : Dict (String × VArray) × Val}
    (h : prepareV R copies g c i state = .ok r) : prepare R g c i state = .ok (asRaw r) := by
  rw [← prepareV_raw R copies, h]
  rfl

/-- **C119, results.**  What a component changes in place has no effect on what the call returns or raises: for tendency
and diagnostic components, and for Steppers without `tendencies_in_diagnostics`, the result is that of the same
`array_call` in the model without memory. -/
theorem in_place_results_same {σ : Type} (R : Registry) (copies : String → Bool) (g : Tracers) (c : Class) (i : Inst)
    (s : σ) (h : Held) (m : Cells) :
    (∀ ac, ((callTendencyV R copies g c i ac s h m).1, (callTendencyV R copies g c i ac s h m).2.2) =
      callTendency R g c i (fun s r => ((ac s r).1, (ac s r).2.2)) s (h.look m)) ∧
    (∀ ac dt, i.tid = false → ((callStepperV R copies g c i ac s h m dt).1, (callStepperV R copies g c i ac s h m dt).2.2) =
      callStepper R g c i (fun s r dt => ((ac s r dt).1, (ac s r dt).2.2)) s (h.look m) dt) ∧
    (∀ ac, ((callDiagnosticV R copies g c i ac s h m).1, (callDiagnosticV R copies g c i ac s h m).2.2) =
      callDiagnostic R g c i (fun s r => ((ac s r).1, (ac s r).2.2)) s (h.look m)) := by
  have hf : ∀ raws ws, SameForms (h.look m) (h.look (List.foldl (Poke.run h raws) m ws)) :=
    fun raws ws => look_sameForms (fun k => pokes_form h raws m ws k)
  refine ⟨fun ac => ?_, fun ac dt ht => ?_, fun ac => ?_⟩
  · unfold callTendencyV callTendency
    cases hp : prepareV R copies g c i (h.look m) with
    | error e => rw [prepareV_error hp]
    | ok raws =>
      rw [prepareV_ok hp]
      simp only [finishTendency, takeTracers_sameForms (hf raws.1 (ac s (asRaw raws)).2.1),
        restore_sameForms (hf raws.1 (ac s (asRaw raws)).2.1)]
  · unfold callStepperV callStepper
    cases hp : prepareV R copies g c i (h.look m) with
    | error e => rw [prepareV_error hp]
    | ok raws =>
      rw [prepareV_ok hp]
      simp only [finishStepper, ht, takeTracers_sameForms (hf raws.1 (ac s (asRaw raws) dt).2.1),
        restore_sameForms (hf raws.1 (ac s (asRaw raws) dt).2.1), Bool.false_eq_true, if_false]
  · unfold callDiagnosticV callDiagnostic
    cases hp : prepareV R copies g c i (h.look m) with
    | error e => rw [prepareV_error hp]
    | ok raws =>
      rw [prepareV_ok hp]
      simp only [finishDiagnostic, restore_sameForms (hf raws.1 (ac s (asRaw raws)).2.1)]

/-- **C119, tracers.**  Changes of the array of the tracers stay in that array. -/
theorem tracer_changes_stay {R : Registry} {copies : String → Bool} {g : Tracers} {c : Class} {i : Inst} {h : Held} {m : Cells}
    {r : Dict (String × VArray) × Val} (hp : i.packer ≠ none) (hr : prepareV R copies g c i (h.look m) = .ok r) (m' : Cells)
    (idx : List Nat) (x : Rat) : Poke.run h r.1 m' ⟨"tracers", idx, x⟩ = m' := by
  unfold prepareV at hr
  obtain ⟨_, _, hr⟩ := Exc.bind_ok_iff.1 hr
  obtain ⟨raws, _, hr⟩ := Exc.bind_ok_iff.1 hr
  obtain ⟨raws', hraws', hr⟩ := Exc.bind_ok_iff.1 hr
  obtain ⟨t, _, hr⟩ := Exc.bind_ok_iff.1 hr
  cases hr
  cases hpk : i.packer with
  | none => exact absurd hpk hp
  | some p =>
    rw [hpk] at hraws'
    obtain ⟨arr, _, hraws'⟩ := Exc.bind_ok_iff.1 hraws'
    cases hraws'
    unfold Poke.run
    dsimp only
    rw [Dict.get?_set_self]

/-- The arrays of the inputs that a component is called with meet the hypothesis of `in_place_changes_explained`. -/
theorem prepareV_raws {R : Registry} {copies : String → Bool} {g : Tracers} {c : Class} {i : Inst} {state : State}
    {r : Dict (String × VArray) × Val} (hr : prepareV R copies g c i state = .ok r)
    (htr : i.packer ≠ none → "tracers" ∉ c.inProps.map outName) :
    ∃ raws0, getNumpyArraysV R copies state c.inProps = .ok raws0 ∧
      ∀ kv ∈ c.inProps, r.1.get? (outName kv) = raws0.get? (outName kv) := by
  unfold prepareV at hr
  obtain ⟨_, _, hr⟩ := Exc.bind_ok_iff.1 hr
  obtain ⟨raws, hraws, hr⟩ := Exc.bind_ok_iff.1 hr
  obtain ⟨raws', hraws', hr⟩ := Exc.bind_ok_iff.1 hr
  obtain ⟨t, _, hr⟩ := Exc.bind_ok_iff.1 hr
  cases hr
  refine ⟨raws, hraws, ?_⟩
  intro kv hkv
  cases hpk : i.packer with
  | none => rw [hpk] at hraws'; cases hraws'; rfl
  | some p =>
    rw [hpk] at hraws'
    obtain ⟨arr, _, hraws'⟩ := Exc.bind_ok_iff.1 hraws'
    cases hraws'
    refine Dict.get?_set_ne _ _ ?_
    intro e
    exact htr (by rw [hpk]; simp) (e ▸ List.mem_map_of_mem hkv)

/-! ## Steppers with `tendencies_in_diagnostics` -/

theorem get?_mapKeyed {α β : Type} (f : String → α → β) (d : Dict α) (k : String) :
    Dict.get? (d.map fun kv => (kv.1, f kv.1 kv.2)) k = (d.get? k).map (f k) := by
  induction d with
  | nil => rfl
  | cons kv d ih =>
    obtain ⟨a, v⟩ := kv
    rw [List.map_cons, Dict.get?_cons, Dict.get?_cons, ih]
    by_cases h : a = k
    · subst h
      simp only [if_true, Option.map_some]
    · simp only [if_neg h]

/-- Restored values are raw values. -/
theorem restoreOne_values {raw : Dict NDArray} {outP inP : PropDict} {wild : Option (List String)} {lens : Dict Nat}
    {name : String} {od : List String} {r : DataArray × Dict Nat} (h : restoreOne raw outP inP wild lens name od = .ok r) :
    ∃ a, raw.get? (getAliasOrName name outP inP) = some a ∧ ∀ idx, ∃ j, r.1.arr.get idx = a.get j := by
  unfold restoreOne at h
  obtain ⟨a, ha, h⟩ := Exc.bind_ok_iff.1 h
  obtain ⟨x, hx, h⟩ := Exc.bind_ok_iff.1 h
  refine ⟨a, Dict.get_eq_ok.1 ha, ?_⟩
  have hx' : ∀ idx, ∃ j, x.2.1.get idx = a.get j := by
    split at hx
    · cases wild with
      | none =>
        dsimp only at hx
        obtain ⟨_, _, hx⟩ := Exc.bind_ok_iff.1 hx
        cases hx
      | some w =>
        dsimp only at hx
        obtain ⟨ds, _, hx⟩ := Exc.bind_ok_iff.1 hx
        cases hr : a.reshape ds.2 with
        | error e => rw [hr] at hx; cases hx
        | ok arr =>
          rw [hr] at hx
          cases hx
          unfold NDArray.reshape at hr
          split at hr
          · cases hr
            exact fun idx => ⟨_, rfl⟩
          · cases hr
    · obtain ⟨_, _, hx⟩ := Exc.bind_ok_iff.1 hx
      cases hx
      exact fun idx => ⟨idx, rfl⟩
  split at h
  · cases h
  · obtain ⟨da, hda, h⟩ := Exc.bind_ok_iff.1 h
    cases h
    unfold DataArray.mk' at hda
    split at hda
    · cases hda
      exact hx'
    · cases hda

theorem restore_values {raw : Dict NDArray} {outP : PropDict} {state : State} {inP : PropDict} {ign : List String} {im : Bool}
    {out : Dict DataArray} (h : restoreDataArrays raw outP state inP ign im = .ok out) :
    ∀ n d, (n, d) ∈ out → ∃ a, raw.get? (getAliasOrName n outP inP) = some a ∧ ∀ idx, ∃ j, d.arr.get idx = a.get j := by
  unfold restoreDataArrays at h
  obtain ⟨wl, _, h⟩ := Exc.bind_ok_iff.1 h
  obtain ⟨ds, _, h⟩ := Exc.bind_ok_iff.1 h
  have key : ∀ (ds : Dict (List String)) lens (out0 : Dict DataArray) ig,
      (∀ n d, (n, d) ∈ out0 → ∃ a, raw.get? (getAliasOrName n outP inP) = some a ∧ ∀ idx, ∃ j, d.arr.get idx = a.get j) →
      restoreLoop raw outP inP wl.1 ig ds lens out0 = .ok out →
      ∀ n d, (n, d) ∈ out → ∃ a, raw.get? (getAliasOrName n outP inP) = some a ∧ ∀ idx, ∃ j, d.arr.get idx = a.get j := by
    intro ds
    induction ds with
    | nil =>
      intro lens out0 ig h0 h
      cases h
      exact h0
    | cons nd ds ih =>
      intro lens out0 ig h0 h
      obtain ⟨name, od⟩ := nd
      unfold restoreLoop at h
      split at h
      · exact ih _ _ _ h0 h
      · obtain ⟨r, hr, h⟩ := Exc.bind_ok_iff.1 h
        refine ih _ _ _ ?_ h
        intro n d hnd
        rcases Dict.mem_set hnd with hnd | hnd
        · exact h0 n d hnd
        · cases hnd
          exact restoreOne_values hr
  exact key ds _ _ _ (by simp) h

/-- **C119, in-place Steppers.**  A Stepper with `tendencies_in_diagnostics` that returns for an output the array it was
given, after changing it in place, puts a tendency of 0 in its diagnostics, whatever the changes were. -/
theorem in_place_tendency_vanishes {σ : Type} {R : Registry} {copies : String → Bool} {g : Tracers} {c : Class} {i : Inst}
    {ac : σ → RawState → Int → σ × List Poke × Except Err (Dict NDArray × Dict NDArray)} {s s' : σ} {h : Held} {m m' : Cells}
    {dt : Int} {diag new : Dict DataArray} {raws : Dict (String × VArray) × Val} {rawD rawN : Dict NDArray}
    {x : String} {nv : String × VArray} {d : DataArray}
    (htid : i.tid = true) (hpk : i.packer = none) (hout : c.outProps.keys.Nodup) (hx : x ∈ c.outProps.keys)
    (hal : getAliasOrName (tendencyName x i.name) c.diagProps c.inProps = tendencyName x i.name)
    (hprep : prepareV R copies g c i (h.look m) = .ok raws)
    (hcall : callStepperV R copies g c i ac s h m dt = (s', m', .ok (diag, new)))
    (hac : (ac s (asRaw raws) dt).2.2 = .ok (rawD, rawN)) (hraw : raws.1.get? x = some nv)
    (hret : rawN.get? x = some (rawAfter h m' (ac s (asRaw raws) dt).2.1 x nv))
    (hd : diag.get? (tendencyName x i.name) = some d) : ∀ idx, d.arr.get idx = 0 := by
  unfold callStepperV at hcall
  rw [hprep] at hcall
  simp only [Prod.mk.injEq, hac, Exc.ok_bind] at hcall
  obtain ⟨_, rfl, hcall⟩ := hcall
  unfold finishStepper takeTracers at hcall
  rw [hpk] at hcall
  simp only [Exc.ok_bind] at hcall
  obtain ⟨_, _, hcall⟩ := Exc.bind_ok_iff.1 hcall
  obtain ⟨_, _, hcall⟩ := Exc.bind_ok_iff.1 hcall
  obtain ⟨rawD', hdiff, hcall⟩ := Exc.bind_ok_iff.1 hcall
  obtain ⟨dg, hdi, hcall⟩ := Exc.bind_ok_iff.1 hcall
  obtain ⟨nw, _, hcall⟩ := Exc.bind_ok_iff.1 hcall
  simp only [Except.ok.injEq, Prod.mk.injEq] at hcall
  obtain ⟨rfl, _⟩ := hcall
  rw [htid, if_pos rfl] at hdiff
  obtain ⟨k1, _⟩ := insertDifferences_ok hout hdiff
  obtain ⟨a, b, z, q1, q2, q3, q4⟩ := k1 x hx
  rw [hret] at q1
  rw [get?_mapKeyed, hraw] at q2
  cases q1
  cases q2
  obtain ⟨r, hr, hv⟩ := restore_values hdi _ _ (Dict.mem_of_get? hd)
  rw [hal, q4] at hr
  cases hr
  intro idx
  obtain ⟨j, hj⟩ := hv idx
  rw [hj]
  unfold NDArray.zipWith at q3
  split at q3
  · cases q3
  · cases q3
    simp

/-! ## Calls without changes -/

theorem getArrayV_view {R : Registry} (hR : R.Faithful) {a : DataArray} {units : String} {od : List String}
    {lens : Dict Nat} {v : VArray} (h : getArrayV R a units od lens = .ok v) : ViewRel a a v v := by
  obtain ⟨own, _, hc⟩ := getArrayV_ok hR h
  rcases hc with ⟨_, hc⟩ | ⟨_, hc⟩
  · obtain ⟨w, hw, hrel⟩ := (getNumpyArrayV_rel (a := a) (a' := a) rfl rfl od lens).ok_left hc
    rw [hc] at hw
    cases hw
    exact hrel
  · exact ⟨rfl, rfl, fun p hp => by rw [hc] at hp; cases hp⟩

/-- The values of a view are those of the quantity. -/
theorem rawInputsV_views {R : Registry} (hR : R.Faithful) {copies : String → Bool} {state : State} {wild : List String}
    {lens : Dict Nat} {props : PropDict} {out0 out : Dict (String × VArray)}
    (h0 : ∀ x ∈ out0, ∀ p, x.2.2.pos = some p → ∃ a, Dict.get? state x.2.1 = some (.da a) ∧
      ∀ idx, x.2.2.arr.get idx = a.arr.get (p idx))
    (h : rawInputsV R copies state wild lens props out0 = .ok out) :
    ∀ x ∈ out, ∀ p, x.2.2.pos = some p → ∃ a, Dict.get? state x.2.1 = some (.da a) ∧
      ∀ idx, x.2.2.arr.get idx = a.arr.get (p idx) := by
  induction props generalizing out0 with
  | nil => cases h; exact h0
  | cons kv rest ih =>
    obtain ⟨n, q⟩ := kv
    unfold rawInputsV at h
    obtain ⟨r, hr, h⟩ := Exc.bind_ok_iff.1 h
    refine ih ?_ h
    intro x hx p hp
    rcases Dict.mem_set hx with hx | hx
    · exact h0 x hx p hp
    · subst hx
      unfold rawInputV at hr
      obtain ⟨du, _, hr⟩ := Exc.bind_ok_iff.1 hr
      obtain ⟨a, ha, hr⟩ := Exc.bind_ok_iff.1 hr
      obtain ⟨v, hv, hr⟩ := Exc.bind_ok_iff.1 hr
      cases hr
      rw [State.da_ok] at ha
      refine ⟨a, ha, ?_⟩
      have hrel : ViewRel a a v v := by
        split at hv
        · obtain ⟨w, hw, hv⟩ := Exc.bind_ok_iff.1 hv
          obtain ⟨v', hv', hrel⟩ := ((getArrayV_view hR hw).flatten _ _ _).ok_left hv
          rw [hv] at hv'
          cases hv'
          exact hrel
        · exact getArrayV_view hR hv
      exact (hrel.2.2 p hp).1

/-- **C119, Steppers that change nothing.**  A Stepper whose `array_call` changes nothing in place leaves the state alone
and does what it does in the model without memory, also with `tendencies_in_diagnostics`. -/
theorem unchanged_stepper_same {σ : Type} {R : Registry} (hR : R.Faithful) (copies : String → Bool) (g : Tracers) (c : Class)
    (i : Inst) (ac : σ → RawState → Int → σ × Except Err (Dict NDArray × Dict NDArray)) (s : σ) (h : Held) (m : Cells)
    (dt : Int) :
    callStepperV R copies g c i (fun s r dt => ((ac s r dt).1, [], (ac s r dt).2)) s h m dt =
      ((callStepper R g c i ac s (h.look m) dt).1, m, (callStepper R g c i ac s (h.look m) dt).2) := by
  unfold callStepperV callStepper
  cases hp : prepareV R copies g c i (h.look m) with
  | error e => rw [prepareV_error hp]
  | ok raws =>
    rw [prepareV_ok hp]
    have hraw : (raws.1.map fun kv => (kv.1, rawAfter h m [] kv.1 kv.2)) = (asRaw raws).arrays := by
      show _ = raws.1.map _
      apply List.map_congr_left
      intro x hx
      congr 1
      unfold rawAfter
      unfold prepareV getNumpyArraysV at hp
      obtain ⟨_, _, hp⟩ := Exc.bind_ok_iff.1 hp
      obtain ⟨raws0, hg, hp⟩ := Exc.bind_ok_iff.1 hp
      obtain ⟨raws1, hraws1, hp⟩ := Exc.bind_ok_iff.1 hp
      obtain ⟨t, _, hp⟩ := Exc.bind_ok_iff.1 hp
      cases hp
      obtain ⟨wl, _, hg⟩ := Exc.bind_ok_iff.1 hg
      have hv := rawInputsV_views hR (by simp) hg
      have hx' : x ∈ raws0 ∨ x.2.2.pos = none := by
        cases hpk : i.packer with
        | none => rw [hpk] at hraws1; cases hraws1; exact .inl hx
        | some p =>
          rw [hpk] at hraws1
          obtain ⟨arr, _, hraws1⟩ := Exc.bind_ok_iff.1 hraws1
          cases hraws1
          rcases Dict.mem_set hx with hx | hx
          · exact .inl hx
          · subst hx; exact .inr rfl
      cases hpos : x.2.2.pos with
      | none => rfl
      | some p =>
        obtain ⟨a, ha, hval⟩ := hv x (hx'.resolve_right (by rw [hpos]; simp)) p hpos
        obtain ⟨l, hl, rfl⟩ := Held.refs_of_look ha
        rw [hl]
        dsimp only
        have : (fun idx => (m l).arr.get (p idx)) = x.2.2.arr.get := by
          funext idx
          exact (hval idx).symm
        rw [this]
    simp only [List.foldl_nil, hraw]

/-! ## Examples -/

namespace Demo

/-- the state of the other examples -/
def held : Held := ⟨[("T", 0), ("h", 1)], 0⟩

def cells : Cells
  | 0 => temp
  | _ => prof

theorem held_look : held.look cells = state := rfl

/-- `T` transposed and flattened, `h` spread over the wildcard -/
def viewProps : PropDict :=
  [("T", { dims := some ["z", "*"], units := some "K", aliasName := some "temp" }),
   ("h", { dims := some ["*", "z"], units := some "km" })]

/-- changes of both arrays -/
def viewWrites : List NamedWrite :=
  [⟨("T", { dims := some ["z", "*"], units := some "K", aliasName := some "temp" }),
      fun d => if d = "x" then 1 else if d = "z" then 2 else 0, 7⟩,
   ⟨("h", { dims := some ["*", "z"], units := some "km" }), fun _ => 0, 8⟩]

def viewLens : String → Nat := fun d => if d = "x" then 2 else if d = "z" then 3 else if d = "y" then 2 else 1

/-- a Stepper that raises the temperature at one place, in place -/
def warmInPlace : Class where
  kind := .stepper
  inProps := [("T", { dims := some ["x", "z", "y"], units := some "K" })]
  outProps := [("T", { units := some "K" })]
  diagProps := []

def warmAc : Nat → RawState → Int → Nat × List Poke × Except Err (Dict NDArray × Dict NDArray) := fun n raw _ =>
  (n, [⟨"T", [1, 0, 0], 105⟩], raw.arrays.get "T" >>= fun t =>
    .ok ([], [("T", { t with get := fun j => if j = [1, 0, 0] then 105 else t.get j })]))

end Demo

/-- `T` is a view and `h` is not: the change of `T` arrives at its named coordinates. -/
example : Exc.test (getNumpyArraysV Demo.reg (fun _ => false) Demo.state Demo.viewProps) (fun raws =>
    let m' := (Demo.viewWrites.map (·.poke ["x", "y"] Demo.viewLens)).foldl (Poke.run Demo.held raws) Demo.cells
    decide ((m' 0).arr.get [1, 2, 0] = 7 ∧ (m' 0).arr.get [1, 2, 1] = 121 ∧ (m' 1).arr.get [0] = 1)) = true := by
  decide +kernel

/-- If numpy copies to merge the dims, nothing arrives. -/
example : Exc.test (getNumpyArraysV Demo.reg (fun _ => true) Demo.state Demo.viewProps) (fun raws =>
    let m' := (Demo.viewWrites.map (·.poke ["x", "y"] Demo.viewLens)).foldl (Poke.run Demo.held raws) Demo.cells
    decide ((m' 0).arr.get [1, 2, 0] = 120 ∧ (m' 1).arr.get [0] = 1)) = true := by
  decide +kernel

/-- The hypotheses of `in_place_changes_explained` hold, and the first change reaches the state. -/
example : ∃ raws, Demo.reg.Faithful ∧ (Demo.held.look Demo.cells).WF ∧ (Demo.held.look Demo.cells).StarFree ∧
    OneStar Demo.viewProps ∧ (Demo.viewProps.map outName).Nodup ∧
    getNumpyArraysV Demo.reg (fun _ => false) (Demo.held.look Demo.cells) Demo.viewProps = .ok raws ∧
    LenSpec (requested (Demo.held.look Demo.cells) Demo.viewProps) Demo.viewLens ∧
    wildSpec (requested (Demo.held.look Demo.cells) Demo.viewProps) = ["x", "y"] ∧
    (∀ w ∈ Demo.viewWrites, w.Inside Demo.viewProps ["x", "y"] Demo.viewLens) ∧
    ∃ w ∈ Demo.viewWrites, w.Reaches Demo.reg (fun _ => false) ["x", "y"] Demo.viewLens Demo.held Demo.cells 0
      (fun d => if d = "x" then 1 else if d = "z" then 2 else 0) := by
  have hok : Exc.test (getNumpyArraysV Demo.reg (fun _ => false) (Demo.held.look Demo.cells) Demo.viewProps)
    (fun _ => true) = true := by decide +kernel
  obtain ⟨raws, hraws, _⟩ := Exc.test_ok hok
  refine ⟨raws, Demo.reg_faithful, Demo.state_wf, ?_, ?_, by decide, hraws, ?_, by decide, ?_, ?_⟩
  · intro n a ha
    obtain ⟨l, hl, rfl⟩ := Held.refs_of_look ha
    match l with
    | 0 => decide
    | l + 1 => show "*" ∉ Demo.prof.dims; decide
  · intro kv hkv d hd
    simp only [Demo.viewProps, List.mem_cons, List.not_mem_nil, or_false] at hkv
    rcases hkv with rfl | rfl <;> cases hd <;> decide
  · refine ⟨?_, ?_⟩
    · intro q hq
      have hq' : q ∈ [(Demo.temp, ["z", "*"]), (Demo.prof, ["*", "z"])] := hq
      simp only [List.mem_cons, List.not_mem_nil, or_false] at hq'
      rcases hq' with rfl | rfl <;> decide
    · intro d hd
      have := hd (Demo.temp, ["z", "*"]) (by show _ ∈ [(Demo.temp, ["z", "*"]), (Demo.prof, ["*", "z"])]; simp)
      simp only [Demo.temp, List.mem_cons, List.not_mem_nil, or_false, not_or] at this
      unfold Demo.viewLens
      rw [if_neg this.1, if_neg this.2.1, if_neg this.2.2]
  · intro w hw
    simp only [Demo.viewWrites, List.mem_cons, List.not_mem_nil, or_false] at hw
    rcases hw with rfl | rfl
    · refine ⟨by simp [Demo.viewProps], ?_⟩
      intro dims hd
      cases hd
      decide
    · refine ⟨by simp [Demo.viewProps], ?_⟩
      intro dims hd
      cases hd
      decide
  · refine ⟨_, List.mem_cons_self, rfl, ⟨["z", "*"], "K", "K", rfl, rfl, rfl, ?_, ?_, fun _ _ => rfl⟩, fun d _ => rfl⟩
    · exact ⟨_, _, rfl, rfl, rfl, rfl, rfl⟩
    · decide

/-- **C119, the violation.**  The Stepper raises `T` at one place from 100 K to 105 K in place and in one second.  The state it
was called with is changed, and the tendency of `T` in the diagnostics is 0 K/s; computed from copies it is 5 K/s. -/
theorem in_place_stepper_tendency_wrong :
    ∃ (c : Class) (i : Inst), construct Demo.reg {} Demo.warmInPlace true "me" = ({}, c, .ok i) ∧
      (Demo.cells 0).arr.get [1, 0, 0] = 100 ∧
      ((callStepperV Demo.reg (fun _ => false) {} c i Demo.warmAc 0 Demo.held Demo.cells 1000000).2.1 0).arr.get [1, 0, 0] = 105 ∧
      (∃ diag new d n, (callStepperV Demo.reg (fun _ => false) {} c i Demo.warmAc 0 Demo.held Demo.cells 1000000).2.2 =
        .ok (diag, new) ∧ diag.get? "T_tendency_from_me" = some d ∧ new.get? "T" = some n ∧
        n.arr.get [1, 0, 0] = 105 ∧ d.arr.get [1, 0, 0] = 0) ∧
      ∃ diag new d, (callStepper Demo.reg {} c i (fun s r dt => ((Demo.warmAc s r dt).1, (Demo.warmAc s r dt).2.2)) 0
        (Demo.held.look Demo.cells) 1000000).2 = .ok (diag, new) ∧ diag.get? "T_tendency_from_me" = some d ∧
        d.arr.get [1, 0, 0] = 5 := by
  have hrun : Exc.test (runCheckers Demo.reg Demo.warmInPlace) (fun _ => true) = true := by decide +kernel
  obtain ⟨u, hu, _⟩ := Exc.test_ok hrun
  refine ⟨(construct Demo.reg {} Demo.warmInPlace true "me").2.1, ⟨"me", true, ["T_tendency_from_me"], none⟩, ?_, ?_, ?_, ?_, ?_⟩
  · unfold construct; rw [hu]; rfl
  · decide +kernel
  · decide +kernel
  · have : Exc.test (callStepperV Demo.reg (fun _ => false) {} (construct Demo.reg {} Demo.warmInPlace true "me").2.1
        ⟨"me", true, ["T_tendency_from_me"], none⟩ Demo.warmAc 0 Demo.held Demo.cells 1000000).2.2
        (fun r => match Dict.get? r.1 "T_tendency_from_me", Dict.get? r.2 "T" with
          | some d, some n => decide (n.arr.get [1, 0, 0] = 105 ∧ d.arr.get [1, 0, 0] = 0)
          | _, _ => false) = true := by decide +kernel
    obtain ⟨⟨diag, new⟩, hr, ht⟩ := Exc.test_ok this
    dsimp only at ht
    cases hd : Dict.get? diag "T_tendency_from_me" with
    | none => rw [hd] at ht; simp at ht
    | some d =>
      cases hn : Dict.get? new "T" with
      | none => rw [hd, hn] at ht; simp at ht
      | some n =>
        rw [hd, hn] at ht
        obtain ⟨h1, h2⟩ := of_decide_eq_true ht
        exact ⟨diag, new, d, n, hr, hd, hn, h1, h2⟩
  · have : Exc.test (callStepper Demo.reg {} (construct Demo.reg {} Demo.warmInPlace true "me").2.1
        ⟨"me", true, ["T_tendency_from_me"], none⟩ (fun s r dt => ((Demo.warmAc s r dt).1, (Demo.warmAc s r dt).2.2)) 0
        (Demo.held.look Demo.cells) 1000000).2
        (fun r => match Dict.get? r.1 "T_tendency_from_me" with
          | some d => decide (d.arr.get [1, 0, 0] = 5)
          | _ => false) = true := by decide +kernel
    obtain ⟨⟨diag, new⟩, hr, ht⟩ := Exc.test_ok this
    dsimp only at ht
    cases hd : Dict.get? diag "T_tendency_from_me" with
    | none => rw [hd] at ht; simp at ht
    | some d =>
      rw [hd] at ht
      exact ⟨diag, new, d, hr, hd, of_decide_eq_true ht⟩

/-! ## TimeDifferencingWrapper -/

/-- **C119, TimeDifferencingWrapper.**  Around a Stepper that changes the state in place, the tendencies lead in one timestep from
the changed state to the new one (in base units): if the Stepper has written the new value of a quantity into the
state, its tendency is 0. -/
theorem in_place_differences {σ : Type} {R : Registry} (hF : R.Faithful) (hrate : R.RateUnits) {outProps : PropDict}
    {stepper : σ → Held → Cells → Int → σ × Cells × Except Err (Dict DataArray × State)} {s s' : σ} {h : Held} {m m' : Cells}
    {dt : Int} (hdt : dt ≠ 0) {t diag : Dict DataArray} {N : State} (hN : (Dict.keys N).Nodup)
    (hstep : stepper s h m dt = (s', m', .ok (diag, N)))
    (hcall : differencingCallV R outProps stepper s h m dt = (s', m', .ok (t, diag))) :
    ∀ n a, Dict.get? N n = some (.da a) → n ∈ Dict.keys outProps →
      ∃ v l u0 u uv sx sa sv, t.get? n = some v ∧ h.refs.get? n = some l ∧ (m' l).attrs.get? "units" = some u0 ∧
        a.attrs.get? "units" = some u ∧ v.attrs.get? "units" = some uv ∧
        R.parse u0 = some sx ∧ R.parse u = some sa ∧ R.parse uv = some sv ∧
        ∀ ix, ((m' l).at' ix * sx.scale + sx.offset) + (v.at' ix * sv.scale + sv.offset) * seconds dt =
          a.at' ix * sa.scale + sa.offset ∧
          (SamePhysical R u0 ((m' l).at' ix) u (a.at' ix) → v.at' ix * sv.scale + sv.offset = 0) := by
  unfold differencingCallV at hcall
  rw [hstep] at hcall
  simp only [Exc.ok_bind, Prod.mk.injEq, true_and] at hcall
  obtain ⟨t', ht, hcall⟩ := Exc.bind_ok_iff.1 hcall
  simp only [Except.ok.injEq, Prod.mk.injEq, and_true] at hcall
  subst hcall
  obtain ⟨i1, _⟩ := differenceLoop_ok hN ht
  intro n a ha hn
  obtain ⟨v, hv, hd⟩ := i1 n a ha hn
  obtain ⟨x, u0, u, p, d, uv, sx, sa, sv, e1, e2, e3, _, _, e6, _, e8, e9, e10, _, e12⟩ := differencedTendency_ok hF hrate hdt hd
  obtain ⟨l, hl, rfl⟩ := Held.refs_of_look e1
  refine ⟨v, l, u0, u, uv, sx, sa, sv, hv, hl, e2, e3, e6, e8, e9, e10, fun ix => ⟨e12 ix, ?_⟩⟩
  rintro ⟨y, z, hy, hz, _, hyz⟩
  rw [e8] at hy; rw [e9] at hz
  cases hy; cases hz
  have h1 := e12 ix
  rw [hyz] at h1
  have h2 : (v.at' ix * sv.scale + sv.offset) * seconds dt = 0 := by linarith
  rcases mul_eq_zero.1 h2 with h3 | h3
  · exact h3
  · exact absurd h3 (div_ne_zero (Int.cast_ne_zero.2 hdt) (by norm_num))

/-- The Stepper of `in_place_stepper_tendency_wrong` in a TimeDifferencingWrapper: a tendency of 0 K/s instead of 5 K/s. -/
theorem in_place_differences_wrong :
    Exc.test (differencingCallV Demo.reg Demo.warmInPlace.outProps
      (fun s h m dt =>
        let r := callStepperV Demo.reg (fun _ => false) {} Demo.warmInPlace ⟨"me", false, [], none⟩ Demo.warmAc s h m dt
        (r.1, r.2.1, r.2.2 >>= fun o => .ok (o.1, o.2.mapVal Val.da))) 0 Demo.held Demo.cells 1000000).2.2
      (fun r => match Dict.get? r.1 "T" with
        | some v => decide (v.arr.get [1, 0, 0] = 0)
        | none => false) = true ∧
    Exc.test (differencingCall Demo.reg Demo.warmInPlace.outProps
      (fun s state dt =>
        let ac := fun s r dt => ((Demo.warmAc s r dt).1, (Demo.warmAc s r dt).2.2)
        let r := callStepper Demo.reg {} Demo.warmInPlace ⟨"me", false, [], none⟩ ac s state dt
        (r.1, r.2 >>= fun o => .ok (o.1, o.2.mapVal Val.da))) 0 (Demo.held.look Demo.cells) 1000000).2
      (fun r => match Dict.get? r.1 "T" with
        | some v => decide (v.arr.get [1, 0, 0] = 5)
        | none => false) = true := by
  constructor <;> decide +kernel

end Verif

import Verif.Lemmas.Backend
import Verif.Spec.Arrays
import Mathlib.Tactic.Ring
import Mathlib.Tactic.FieldSimp
import Mathlib.Tactic.Linarith
/-! # Lemmas about unit conversion, wildcard matching and raw inputs -/

namespace Verif

theorem Registry.unit_ok {R : Registry} {s : String} {u : PintUnit} :
    R.unit s = .ok u ↔ R.parse s = some u := by
  unfold Registry.unit; cases R.parse s <;> simp

theorem PintUnit.sameQty_iff {a b : PintUnit} :
    a.sameQty b = true ↔ a.dim = b.dim ∧ a.scale + a.offset = b.scale + b.offset := by
  simp only [PintUnit.sameQty, PintUnit.toBase, Rat.one_mul]
  simp

theorem PintUnit.toBase_convert (a b : PintUnit) (x : Rat) :
    b.toBase (a.convert b x) = a.toBase x := by
  have := b.scale_pos
  have hb : b.scale ≠ 0 := ne_of_gt this
  unfold PintUnit.convert
  simp only [PintUnit.toBase]
  field_simp
  ring

/-- Successful conversion: same dims and shape, same physical values. -/
theorem toUnits_ok {R : Registry} (hR : R.Faithful) {v q : DataArray} {units : String}
    (h : v.toUnits R units = .ok q) :
    ∃ own, v.attrs.get? "units" = some own ∧ q.dims = v.dims ∧ q.arr.shape = v.arr.shape ∧
      (∀ idx, SamePhysical R units (q.arr.get idx) own (v.arr.get idx)) ∧
      (∃ a b, R.parse own = some a ∧ R.parse units = some b ∧
        ((q = v ∧ a.sameQty b) ∨
          (q.attrs = v.attrs.set "units" units ∧ ∀ idx, q.arr.get idx = a.convert b (v.arr.get idx)))) := by
  unfold DataArray.toUnits DataArray.dataArrayToUnits at h
  cases hu : v.attrs.get? "units" with
  | none => simp [hu] at h
  | some own =>
    simp only [hu] at h
    refine ⟨own, rfl, ?_⟩
    cases ha : R.parse own with
    | none => simp [Registry.unit, ha] at h
    | some a =>
      cases hb : R.parse units with
      | none => simp [Registry.unit, ha, hb] at h
      | some b =>
        simp only [Registry.unit, ha, hb, Exc.ok_bind] at h
        by_cases hs : a.sameQty b = true
        · simp only [hs, if_true, Except.ok.injEq] at h
          subst h
          have hs' := PintUnit.sameQty_iff.1 hs
          have hf := hR own units a b ha hb hs'.1 hs'.2
          refine ⟨rfl, rfl, ?_, a, b, rfl, rfl, Or.inl ⟨rfl, hs⟩⟩
          intro idx
          exact ⟨b, a, hb, ha, hs'.1.symm, by rw [hf.1, hf.2]⟩
        · simp only [hs] at h
          by_cases hd : a.dim = b.dim
          · simp only [hd, if_true] at h
            simp only [Bool.false_eq_true, if_false, Except.ok.injEq] at h
            subst h
            refine ⟨rfl, rfl, ?_, a, b, rfl, rfl, Or.inr ⟨rfl, fun _ => rfl⟩⟩
            intro idx
            refine ⟨b, a, hb, ha, hd.symm, ?_⟩
            exact PintUnit.toBase_convert a b (v.arr.get idx)
          · simp [hd] at h

theorem toUnits_isOk {R : Registry} {v : DataArray} {own units : String} {a b : PintUnit}
    (hu : v.attrs.get? "units" = some own) (ha : R.parse own = some a) (hb : R.parse units = some b)
    (hd : a.dim = b.dim) : ∃ q, v.toUnits R units = .ok q := by
  unfold DataArray.toUnits DataArray.dataArrayToUnits
  simp only [hu, Registry.unit, ha, hb, Exc.ok_bind, hd, if_true]
  by_cases hs : a.sameQty b = true
  · simp only [hs, if_true]; exact ⟨_, rfl⟩
  · simp only [hs]; exact ⟨_, rfl⟩

theorem State.da_ok {s : State} {n : String} {a : DataArray} :
    s.da n = .ok a ↔ Dict.get? s n = some (.da a) := by
  unfold State.da
  cases Dict.get? s n with
  | none => simp
  | some v => cases v <;> simp

theorem ensureDimsUnits_ok {p : QProps} {du : List String × String} :
    ensureDimsUnits p = .ok du ↔ p.dims = some du.1 ∧ p.units = some du.2 := by
  unfold ensureDimsUnits
  obtain ⟨d, u⟩ := du
  cases p.dims <;> cases p.units <;> simp

theorem learnLens_ok {zs : List (String × Nat)} {lens lens' : Dict Nat}
    (h : learnLens zs lens = .ok lens') :
    (∀ d m, lens.get? d = some m → lens'.get? d = some m) ∧
    (∀ d n, (d, n) ∈ zs → lens'.get? d = some n) ∧
    (∀ d m, lens'.get? d = some m → lens.get? d = some m ∨ (d, m) ∈ zs) := by
  induction zs generalizing lens with
  | nil => cases h; exact ⟨fun _ _ h => h, by simp, fun _ _ h => Or.inl h⟩
  | cons dn zs ih =>
    obtain ⟨d, n⟩ := dn
    unfold learnLens at h
    cases hg : lens.get? d with
    | none =>
      simp only [hg] at h
      obtain ⟨h1, h2, h3⟩ := ih h
      refine ⟨?_, ?_, ?_⟩
      · intro e m he
        apply h1
        rw [Dict.get?_set_ne _ _ (fun eq => by subst eq; simp [hg] at he)]
        exact he
      · intro e m he
        rcases List.mem_cons.1 he with he | he
        · cases he; exact h1 _ _ (Dict.get?_set_self _ _ _)
        · exact h2 e m he
      · intro e m he
        rcases h3 e m he with he | he
        · rw [Dict.get?_set] at he
          split at he
          · rename_i hde; cases he; subst hde; exact Or.inr (by simp)
          · exact Or.inl he
        · exact Or.inr (List.mem_cons_of_mem _ he)
    | some m =>
      simp only [hg] at h
      split at h
      · cases h
      · rename_i hnm
        have hnm : n = m := by simpa using hnm
        subst hnm
        obtain ⟨h1, h2, h3⟩ := ih h
        refine ⟨h1, ?_, ?_⟩
        · intro e k he
          rcases List.mem_cons.1 he with he | he
          · cases he; exact h1 _ _ hg
          · exact h2 e k he
        · intro e k he
          rcases h3 e k he with he | he
          · exact Or.inl he
          · exact Or.inr (List.mem_cons_of_mem _ he)

theorem learnLens_isOk {zs : List (String × Nat)} {lens : Dict Nat} {L : String → Nat}
    (h1 : ∀ d n, (d, n) ∈ zs → n = L d) (h2 : ∀ d m, lens.get? d = some m → m = L d) :
    ∃ lens', learnLens zs lens = .ok lens' := by
  induction zs generalizing lens with
  | nil => exact ⟨_, rfl⟩
  | cons dn zs ih =>
    obtain ⟨d, n⟩ := dn
    unfold learnLens
    cases hg : lens.get? d with
    | none =>
      apply ih (fun e k he => h1 e k (List.mem_cons_of_mem _ he))
      intro e k he
      rw [Dict.get?_set] at he
      split at he
      · rename_i hde; cases he; subst hde; exact h1 _ _ (by simp)
      · exact h2 e k he
    | some m =>
      have e1 := h1 d n (by simp)
      have e2 := h2 d m hg
      simp only [e1, e2, ne_eq, not_true_eq_false, if_false]
      exact ih (fun e k he => h1 e k (List.mem_cons_of_mem _ he)) h2

theorem learnLens_error {zs : List (String × Nat)} {lens : Dict Nat} {e : Err}
    (h : learnLens zs lens = .error e) : e = .invalidState := by
  induction zs generalizing lens with
  | nil => cases h
  | cons dn zs ih =>
    obtain ⟨d, n⟩ := dn
    unfold learnLens at h
    cases hg : lens.get? d with
    | none => simp only [hg] at h; exact ih h
    | some m =>
      simp only [hg] at h
      split at h
      · cases h; rfl
      · exact ih h

theorem eraseDups_of_nodup {l : List String} (h : l.Nodup) : l.eraseDups = l := by
  induction l with
  | nil => rfl
  | cons a l ih =>
    rw [List.nodup_cons] at h
    rw [List.eraseDups_cons]
    have : l.filter (fun b => !b == a) = l := by
      rw [List.filter_eq_self]
      intro b hb; simp; exact fun e => h.1 (e ▸ hb)
    rw [this, ih h.2]

theorem eraseDups_append_new {acc new : List String} (hn : new.Nodup) :
    (acc ++ new).eraseDups = acc.eraseDups ++ new.filter (fun d => d ∉ acc.eraseDups) := by
  rw [List.eraseDups_append]
  congr 1
  have : new.removeAll acc = new.filter (fun d => d ∉ acc.eraseDups) := by
    unfold List.removeAll
    apply List.filter_congr
    intro x _
    simp
  rw [this]
  exact eraseDups_of_nodup (hn.filter _)

/-- What a successful pass over the property dictionary has established. -/
structure MatchInv (state : State) (props : PropDict) (lens0 lens : Dict Nat) : Prop where
  mono : ∀ d m, lens0.get? d = some m → lens.get? d = some m
  entry : ∀ kv ∈ props, ∃ dims units a, kv.2.dims = some dims ∧ kv.2.units = some units ∧
    Dict.get? state kv.1 = some (.da a) ∧ (∀ d ∈ a.dims, lens.get? d = some (a.len d)) ∧
    (∀ d ∈ a.dims, d ∈ dims ∨ "*" ∈ dims)
  origin : ∀ d m, lens.get? d = some m → lens0.get? d = some m ∨
    ∃ q ∈ requested state props, d ∈ q.1.dims

theorem requested_cons {state : State} {kv : String × QProps} {props : PropDict} {a : DataArray}
    {dims : List String} (h1 : Dict.get? state kv.1 = some (.da a)) (h2 : kv.2.dims = some dims) :
    requested state (kv :: props) = (a, dims) :: requested state props := by
  simp [requested, h1, h2]

theorem matchLoop_ok {state : State} (hwf : state.WF) {props : PropDict} {acc : List String}
    {lens0 : Dict Nat} {wild' : List String} {lens : Dict Nat}
    (h : matchLoop state props acc.eraseDups lens0 = .ok (wild', lens)) :
    MatchInv state props lens0 lens ∧
    wild' = (acc ++ (requested state props).flatMap
      fun q => q.1.dims.filter (fun d => d ∉ q.2)).eraseDups := by
  induction props generalizing acc lens0 with
  | nil =>
    cases h
    refine ⟨⟨fun _ _ h => h, by simp, fun _ _ h => Or.inl h⟩, by simp [requested]⟩
  | cons kv props ih =>
    obtain ⟨name, p⟩ := kv
    unfold matchLoop at h
    obtain ⟨du, hdu, h⟩ := Exc.bind_ok_iff.1 h
    obtain ⟨a, ha, h⟩ := Exc.bind_ok_iff.1 h
    obtain ⟨lens1, hl, h⟩ := Exc.bind_ok_iff.1 h
    rw [ensureDimsUnits_ok] at hdu
    rw [State.da_ok] at ha
    have hawf := hwf _ _ ha
    obtain ⟨l1, l2, l3⟩ := learnLens_ok hl
    dsimp only at h
    split at h
    · cases h
    rename_i hnew
    have hnd : (a.dims.filter (fun d => d ∉ du.1)).Nodup := hawf.2.filter _
    rw [← eraseDups_append_new hnd] at h
    obtain ⟨inv, hw⟩ := ih h
    have hlen1 : ∀ d ∈ a.dims, lens.get? d = some (a.len d) := fun d hd =>
      inv.mono _ _ (l2 _ _ ((DataArray.mem_zip_len hawf).2 ⟨hd, rfl⟩))
    refine ⟨⟨fun d m hd => inv.mono _ _ (l1 _ _ hd), ?_, ?_⟩, ?_⟩
    · intro kv hkv
      rcases List.mem_cons.1 hkv with rfl | hkv
      · refine ⟨du.1, du.2, a, hdu.1, hdu.2, ha, hlen1, ?_⟩
        intro d hd
        by_cases hc : "*" ∈ du.1
        · exact Or.inr hc
        · left
          by_contra hd'
          apply hnew
          refine ⟨?_, hc⟩
          intro hnil
          have : d ∈ a.dims.filter (fun d => d ∉ du.1) := List.mem_filter.2 ⟨hd, by simpa using hd'⟩
          rw [hnil] at this; simp at this
      · exact inv.entry kv hkv
    · intro d m hd
      rw [requested_cons ha hdu.1]
      rcases inv.origin d m hd with h' | ⟨q, hq, hd'⟩
      · rcases l3 d m h' with h' | h'
        · exact Or.inl h'
        · exact Or.inr ⟨(a, du.1), by simp, ((DataArray.mem_zip_len hawf).1 h').1⟩
      · exact Or.inr ⟨q, List.mem_cons_of_mem _ hq, hd'⟩
    · rw [hw, requested_cons ha hdu.1]
      simp

theorem matchLoop_isOk {state : State} (hwf : state.WF) {props : PropDict} {wild0 : List String}
    {lens0 : Dict Nat} {L : String → Nat}
    (hent : ∀ kv ∈ props, ∃ dims units a, kv.2.dims = some dims ∧ kv.2.units = some units ∧
      Dict.get? state kv.1 = some (.da a) ∧ (∀ d ∈ a.dims, a.len d = L d) ∧
      (∀ d ∈ a.dims, d ∈ dims ∨ "*" ∈ dims))
    (hL : ∀ d m, lens0.get? d = some m → m = L d) :
    ∃ r, matchLoop state props wild0 lens0 = .ok r := by
  induction props generalizing wild0 lens0 with
  | nil => exact ⟨_, rfl⟩
  | cons kv props ih =>
    obtain ⟨name, p⟩ := kv
    obtain ⟨dims, units, a, h1, h2, h3, h4, h5⟩ := hent _ (List.mem_cons_self)
    have hawf := hwf _ _ h3
    unfold matchLoop
    rw [(ensureDimsUnits_ok (du := (dims, units))).2 ⟨h1, h2⟩, State.da_ok.2 h3]
    simp only [Exc.ok_bind]
    have hzs : ∀ d n, (d, n) ∈ a.dims.zip a.arr.shape → n = L d := by
      intro d n hd
      obtain ⟨hd1, hd2⟩ := (DataArray.mem_zip_len hawf).1 hd
      rw [hd2]; exact h4 d hd1
    obtain ⟨lens1, hl⟩ := learnLens_isOk hzs hL
    rw [hl]
    simp only [Exc.ok_bind]
    rw [if_neg]
    · apply ih (fun kv hkv => hent kv (List.mem_cons_of_mem _ hkv))
      intro d m hd
      rcases (learnLens_ok hl).2.2 d m hd with h | h
      · exact hL d m h
      · exact hzs d m h
    · rintro ⟨hne, hst⟩
      apply hne
      rw [List.filter_eq_nil_iff]
      intro d hd
      rcases h5 d hd with h | h
      · simpa using h
      · exact absurd h hst

theorem any_star_iff {props : PropDict} :
    props.any (fun kv => hasStar kv.2) = true ↔
      ∃ kv ∈ props, ∃ d, kv.2.dims = some d ∧ "*" ∈ d := by
  rw [List.any_eq_true]
  unfold hasStar
  constructor
  · rintro ⟨kv, hkv, h⟩
    cases hd : kv.2.dims with
    | none => simp [hd] at h
    | some d => exact ⟨kv, hkv, d, hd, by simpa [hd] using h⟩
  · rintro ⟨kv, hkv, d, hd, h⟩
    exact ⟨kv, hkv, by simp [hd, h]⟩

/-- What `getWildcard` establishes. -/
theorem getWildcard_ok {state : State} (hwf : state.WF) {props : PropDict}
    {wl : Option (List String) × Dict Nat} (h : getWildcard state props = .ok wl) :
    MatchInv state props [] wl.2 ∧
    (wl.1 = some (wildSpec (requested state props)) ∨ wl.1 = none) ∧
    (wl.1 = none ↔ ∀ kv ∈ props, ∀ d, kv.2.dims = some d → "*" ∉ d) := by
  unfold getWildcard at h
  obtain ⟨r, hr, h⟩ := Exc.bind_ok_iff.1 h
  obtain ⟨w, l⟩ := r
  have hnil : ([] : List String).eraseDups = [] := rfl
  rw [← hnil] at hr
  obtain ⟨inv, hw⟩ := matchLoop_ok hwf hr
  split at h
  · rename_i ha
    rw [any_star_iff] at ha
    cases h
    refine ⟨inv, Or.inl ?_, ?_⟩
    · simp only [hw, List.nil_append]; rfl
    · constructor
      · intro h; cases h
      · intro h
        obtain ⟨kv, hkv, d, hd, hs⟩ := ha
        exact absurd hs (h kv hkv d hd)
  · rename_i ha
    rw [any_star_iff] at ha
    cases h
    refine ⟨inv, Or.inr rfl, ?_⟩
    simp only [true_iff]
    intro kv hkv d hd hs
    exact ha ⟨kv, hkv, d, hd, hs⟩

theorem mem_requested {state : State} {props : PropDict} {q : DataArray × List String} :
    q ∈ requested state props ↔ ∃ kv ∈ props, Dict.get? state kv.1 = some (.da q.1) ∧
      kv.2.dims = some q.2 := by
  unfold requested
  rw [List.mem_filterMap]
  constructor
  · rintro ⟨kv, hkv, h⟩
    refine ⟨kv, hkv, ?_⟩
    split at h
    · rename_i h1 h2
      cases h; exact ⟨h1, h2⟩
    · cases h
  · rintro ⟨kv, hkv, h1, h2⟩
    exact ⟨kv, hkv, by simp [h1, h2]⟩

theorem mem_wildSpec {qs : List (DataArray × List String)} {d : String} :
    d ∈ wildSpec qs ↔ ∃ q ∈ qs, d ∈ q.1.dims ∧ d ∉ q.2 := by
  unfold wildSpec
  simp [List.mem_eraseDups]

theorem nodup_eraseDups (l : List String) : l.eraseDups.Nodup := by
  have key : ∀ n, ∀ l : List String, l.length ≤ n → l.eraseDups.Nodup := by
    intro n
    induction n with
    | zero =>
      intro l hl
      have : l = [] := List.eq_nil_of_length_eq_zero (by omega)
      subst this; simp
    | succ n ih =>
      intro l hl
      cases l with
      | nil => simp
      | cons a l =>
        rw [List.eraseDups_cons, List.nodup_cons]
        refine ⟨?_, ih _ ?_⟩
        · rw [List.mem_eraseDups]; simp
        · have := List.length_filter_le (fun b => !b == a) l
          simp at hl; omega
  exact key l.length l (Nat.le_refl _)

theorem nodup_wildSpec (qs : List (DataArray × List String)) : (wildSpec qs).Nodup :=
  nodup_eraseDups _

theorem lenSpec_of_inv {state : State} {props : PropDict} {lens : Dict Nat}
    (inv : MatchInv state props [] lens) : LenSpec (requested state props) (lenOr1 lens) := by
  refine ⟨?_, ?_⟩
  · intro q hq d hd
    obtain ⟨kv, hkv, h1, h2⟩ := mem_requested.1 hq
    obtain ⟨dims, units, a, e1, e2, e3, e4, e5⟩ := inv.entry kv hkv
    rw [h1] at e3
    cases e3
    simp [lenOr1, e4 d hd]
  · intro d hd
    unfold lenOr1
    cases hg : lens.get? d with
    | none => rfl
    | some m =>
      rcases inv.origin d m hg with h | ⟨q, hq, h⟩
      · simp at h
      · exact absurd h (hd q hq)

theorem getArray_ok {R : Registry} (hR : R.Faithful) {a : DataArray} (hwf : a.WF)
    {units : String} {outDims : List String} {lens : Dict Nat} {out : NDArray}
    (hsub : ∀ d ∈ a.dims, d ∈ outDims) (hlens : ∀ d ∈ a.dims, lens.get? d = some (a.len d))
    (h : getArray R a units outDims lens = .ok out) :
    ∃ own q, a.attrs.get? "units" = some own ∧ Layout out outDims (lenOr1 lens) q ∧
      ∀ ix, SamePhysical R units (q ix) own (a.at' ix) := by
  unfold getArray at h
  cases hu : a.attrs.get? "units" with
  | none => simp [hu] at h
  | some own =>
    simp only [hu] at h
    cases hq : a.toUnits R units with
    | error e => rw [hq] at h; cases e <;> simp at h
    | ok q =>
      simp only [hq] at h
      obtain ⟨own', hu', hdims, hshape, hval, _⟩ := toUnits_ok hR hq
      rw [hu] at hu'
      cases hu'
      have hqwf : q.WF := by unfold DataArray.WF; rw [hdims, hshape]; exact hwf
      have hqlen : ∀ d, q.len d = a.len d := by intro d; unfold DataArray.len; rw [hdims, hshape]
      refine ⟨own, q.at', rfl, ?_, ?_⟩
      · apply getNumpyArray_ok hqwf _ _ h
        · rw [hdims]; exact hsub
        · rw [hdims]; intro d hd; rw [hqlen]; exact hlens d hd
      · intro ix
        have := hval (a.dims.map ix)
        unfold DataArray.at'
        rw [hdims]; exact this

theorem getArray_isOk {R : Registry} (hR : R.Faithful) {a : DataArray} (hwf : a.WF)
    {own units : String} {ua ub : PintUnit} {outDims : List String} {lens : Dict Nat}
    (hu : a.attrs.get? "units" = some own) (ha : R.parse own = some ua)
    (hb : R.parse units = some ub) (hdim : ua.dim = ub.dim) (hnd : outDims.Nodup)
    (hsub : ∀ d ∈ a.dims, d ∈ outDims) (hlens : ∀ d ∈ a.dims, lens.get? d = some (a.len d)) :
    ∃ out, getArray R a units outDims lens = .ok out := by
  obtain ⟨q, hq⟩ := toUnits_isOk (v := a) hu ha hb hdim
  obtain ⟨own', hu', hdims, hshape, hval, _⟩ := toUnits_ok hR hq
  have hqwf : q.WF := by unfold DataArray.WF; rw [hdims, hshape]; exact hwf
  have hqlen : ∀ d, q.len d = a.len d := by intro d; unfold DataArray.len; rw [hdims, hshape]
  unfold getArray
  simp only [hu, hq]
  apply getNumpyArray_isOk hqwf _ hnd
  · rw [hdims]; intro d hd; rw [hqlen]; exact hlens d hd
  · rw [hdims]; exact hsub

theorem map_split_star {dims : List String} (h : "*" ∈ dims) (hc : dims.count "*" ≤ 1)
    {α : Type} (c : α) (f : String → α) :
    (dims.map fun d => if d = "*" then c else f d) =
      (dims.take (dims.idxOf "*")).map f ++ [c] ++ (dims.drop (dims.idxOf "*" + 1)).map f := by
  obtain ⟨h1, h2⟩ := split_at_idxOf h
  have h3 : "*" ∉ dims.drop (dims.idxOf "*" + 1) := by
    have := hc
    rw [h1, List.count_append, List.count_cons_self] at this
    exact List.count_eq_zero.1 (by omega)
  conv_lhs => rw [h1]
  rw [List.map_append, List.map_cons, if_pos rfl]
  rw [List.map_congr_left (g := f), List.map_congr_left (l := dims.drop _) (g := f)]
  · simp
  · intro d hd; rw [if_neg]; rintro rfl; exact h3 hd
  · intro d hd; rw [if_neg]; rintro rfl; exact h2 hd

/-- One raw input, described by the specification index. -/
theorem rawInput_ok {R : Registry} (hR : R.Faithful) {state : State} (hwf : state.WF)
    {wild : List String} {lens : Dict Nat} {name : String} {p : QProps} {r : String × NDArray}
    {dims : List String} {units : String} {a : DataArray}
    (hd : p.dims = some dims) (hu : p.units = some units) (ha : Dict.get? state name = some (.da a))
    (hlens : ∀ d ∈ a.dims, lens.get? d = some (a.len d))
    (hsub : ∀ d ∈ a.dims, d ∈ dims ∨ ("*" ∈ dims ∧ d ∈ wild))
    (hstar : dims.count "*" ≤ 1) (hns : "*" ∉ a.dims)
    (h : rawInput R state wild lens name p = .ok r) :
    r.1 = p.aliasName.getD name ∧ r.2.shape = specShape dims wild (lenOr1 lens) ∧
    ∃ own, a.attrs.get? "units" = some own ∧
      ∀ ix : String → Nat, (∀ d ∈ dims, d ≠ "*" → ix d < lenOr1 lens d) →
        ("*" ∈ dims → ∀ d ∈ wild, ix d < lenOr1 lens d) →
        SamePhysical R units (r.2.get (specIndex dims wild (lenOr1 lens) ix)) own (a.at' ix) := by
  unfold rawInput at h
  obtain ⟨du, hdu, h1⟩ := Exc.bind_ok_iff.1 h
  obtain ⟨a', ha', h2⟩ := Exc.bind_ok_iff.1 h1
  obtain ⟨arr, harr, h3⟩ := Exc.bind_ok_iff.1 h2
  clear h h1 h2
  rw [ensureDimsUnits_ok, hd, hu] at hdu
  obtain ⟨hdu1, hdu2⟩ := hdu
  injection hdu1 with hdu1
  injection hdu2 with hdu2
  rw [State.da_ok, ha] at ha'
  cases ha'
  cases h3
  rw [← hdu1, ← hdu2] at harr
  have hawf := hwf _ _ ha
  refine ⟨rfl, ?_⟩
  split at harr
  · rename_i hs
    obtain ⟨arr', harr', hflat⟩ := Exc.bind_ok_iff.1 harr
    obtain ⟨hsplit, hpre⟩ := split_at_idxOf hs
    have hmem : ∀ d ∈ a.dims, d ∈ dims.take (dims.idxOf "*") ++ wild ++ dims.drop (dims.idxOf "*" + 1) := by
      intro d hdm
      rcases hsub d hdm with h | ⟨_, h⟩
      · have hne : d ≠ "*" := fun e => hns (e ▸ hdm)
        rw [hsplit] at h
        simp only [List.mem_append, List.mem_cons] at h ⊢
        rcases h with h | h | h
        · simp [h]
        · exact absurd h hne
        · simp [h]
      · simp [h]
    obtain ⟨own, q, hown, hlay, hval⟩ := getArray_ok hR hawf hmem hlens harr'
    have hplen : (dims.take (dims.idxOf "*")).length = dims.idxOf "*" := by
      rw [List.length_take]
      have := List.idxOf_lt_length_iff.2 hs
      omega
    have hflat' : flattenWildcardDims arr' (dims.take (dims.idxOf "*")).length
        ((dims.take (dims.idxOf "*")).length + wild.length) = .ok arr := by
      rw [hplen]; exact hflat
    obtain ⟨f1, f2⟩ := flatten_ok hlay hflat'
    refine ⟨?_, own, hown, ?_⟩
    · unfold specShape
      rw [map_split_star hs hstar]; exact f1
    · intro ix hb hbw
      unfold specIndex
      rw [map_split_star hs hstar, f2 ix]
      · exact hval ix
      · intro d hdm
        have h3 : "*" ∉ dims.drop (dims.idxOf "*" + 1) := by
          have := hstar
          rw [hsplit, List.count_append, List.count_cons_self] at this
          exact List.count_eq_zero.1 (by omega)
        simp only [List.mem_append] at hdm
        rcases hdm with (hdm | hdm) | hdm
        · apply hb d (List.mem_of_mem_take hdm); rintro rfl; exact hpre hdm
        · exact hbw hs d hdm
        · apply hb d (List.mem_of_mem_drop hdm); rintro rfl; exact h3 hdm
  · rename_i hs
    have hmem : ∀ d ∈ a.dims, d ∈ dims := by
      intro d hdm
      rcases hsub d hdm with h | ⟨h, _⟩
      · exact h
      · exact absurd h hs
    obtain ⟨own, q, hown, hlay, hval⟩ := getArray_ok hR hawf hmem hlens harr
    have hmap : ∀ (c : Nat) (f : String → Nat), (dims.map fun d => if d = "*" then c else f d) = dims.map f := by
      intro c f
      apply List.map_congr_left
      intro d hdm; rw [if_neg]; rintro rfl; exact hs hdm
    refine ⟨?_, own, hown, ?_⟩
    · unfold specShape; rw [hmap]; exact hlay.1
    · intro ix hb _
      unfold specIndex; rw [hmap, hlay.2 ix]
      · exact hval ix
      · intro d hdm; exact hb d hdm (fun e => hs (e ▸ hdm))

theorem rawInput_isOk {R : Registry} (hR : R.Faithful) {state : State} (hwf : state.WF)
    {wild : List String} {lens : Dict Nat} {name : String} {p : QProps}
    {dims : List String} {units own : String} {ua ub : PintUnit} {a : DataArray}
    (hd : p.dims = some dims) (hu : p.units = some units) (ha : Dict.get? state name = some (.da a))
    (hown : a.attrs.get? "units" = some own) (hpa : R.parse own = some ua)
    (hpb : R.parse units = some ub) (hdim : ua.dim = ub.dim)
    (hlens : ∀ d ∈ a.dims, lens.get? d = some (a.len d))
    (hsub : ∀ d ∈ a.dims, d ∈ dims ∨ ("*" ∈ dims ∧ d ∈ wild)) (hns : "*" ∉ a.dims)
    (hnd : dims.Nodup) (hwn : wild.Nodup) (hdisj : "*" ∈ dims → ∀ d ∈ wild, d ∉ dims) :
    ∃ r, rawInput R state wild lens name p = .ok r := by
  have hawf := hwf _ _ ha
  unfold rawInput
  rw [(ensureDimsUnits_ok (du := (dims, units))).2 ⟨hd, hu⟩, State.da_ok.2 ha]
  simp only [Exc.ok_bind]
  split
  · rename_i hs
    obtain ⟨hsplit, hpre⟩ := split_at_idxOf hs
    have hmem : ∀ d ∈ a.dims, d ∈ dims.take (dims.idxOf "*") ++ wild ++ dims.drop (dims.idxOf "*" + 1) := by
      intro d hdm
      rcases hsub d hdm with h | ⟨_, h⟩
      · have hne : d ≠ "*" := fun e => hns (e ▸ hdm)
        rw [hsplit] at h
        simp only [List.mem_append, List.mem_cons] at h ⊢
        rcases h with h | h | h
        · simp [h]
        · exact absurd h hne
        · simp [h]
      · simp [h]
    have hn : (dims.take (dims.idxOf "*") ++ wild ++ dims.drop (dims.idxOf "*" + 1)).Nodup := by
      have hsub2 : ((dims.take (dims.idxOf "*")) ++ dims.drop (dims.idxOf "*" + 1)).Sublist dims := by
        conv_rhs => rw [hsplit]
        exact List.Sublist.append (List.Sublist.refl _) (List.sublist_cons_self _ _)
      have hn2 := hsub2.nodup hnd
      have hin : ∀ d, d ∈ (dims.take (dims.idxOf "*")) ++ dims.drop (dims.idxOf "*" + 1) → d ∈ dims :=
        fun d hd => hsub2.subset hd
      rw [List.nodup_append] at hn2
      rw [List.append_assoc, List.nodup_append]
      refine ⟨hn2.1, ?_, ?_⟩
      · rw [List.nodup_append]
        refine ⟨hwn, hn2.2.1, ?_⟩
        rintro x hx y hy rfl
        exact hdisj hs x hx (hin x (by simp [hy]))
      · rintro x hx y hy rfl
        rcases List.mem_append.1 hy with hy | hy
        · exact hdisj hs x hy (hin x (by simp [hx]))
        · exact hn2.2.2 x hx x hy rfl
    obtain ⟨arr, harr⟩ := getArray_isOk hR hawf hown hpa hpb hdim hn hmem hlens
    obtain ⟨own, q, _, hlay, hval⟩ := getArray_ok hR hawf hmem hlens harr
    have hplen : (dims.take (dims.idxOf "*")).length = dims.idxOf "*" := by
      rw [List.length_take]
      have := List.idxOf_lt_length_iff.2 hs
      omega
    obtain ⟨out, hout⟩ := flatten_isOk hlay.1
    rw [hplen] at hout
    rw [harr]
    simp only [Exc.ok_bind, hout]
    exact ⟨_, rfl⟩
  · rename_i hs
    have hmem : ∀ d ∈ a.dims, d ∈ dims := by
      intro d hdm
      rcases hsub d hdm with h | ⟨h, _⟩
      · exact h
      · exact absurd h hs
    obtain ⟨arr, harr⟩ := getArray_isOk hR hawf hown hpa hpb hdim hnd hmem hlens
    rw [harr]
    exact ⟨_, rfl⟩

/-- The loop succeeds exactly when each iteration does; the result holds, for
distinct keys, each iteration's array. -/
theorem rawInputs_ok {R : Registry} {state : State} {wild : List String} {lens : Dict Nat}
    {props : PropDict} {out0 out : Dict NDArray}
    (h : rawInputs R state wild lens props out0 = .ok out) :
    (∀ kv ∈ props, ∃ r, rawInput R state wild lens kv.1 kv.2 = .ok r) ∧
    (∀ k, k ∉ props.map outName → out.get? k = out0.get? k) ∧
    ((props.map outName).Nodup → ∀ kv ∈ props, ∀ r,
      rawInput R state wild lens kv.1 kv.2 = .ok r → out.get? (outName kv) = some r.2) ∧
    (∀ k, k ∈ out.keys ↔ k ∈ out0.keys ∨ k ∈ props.map outName) := by
  have hname : ∀ {kv : String × QProps} {r}, rawInput R state wild lens kv.1 kv.2 = .ok r →
      r.1 = outName kv := by
    intro kv r hr
    unfold rawInput at hr
    obtain ⟨du, _, hr⟩ := Exc.bind_ok_iff.1 hr
    obtain ⟨a', _, hr⟩ := Exc.bind_ok_iff.1 hr
    obtain ⟨arr, _, hr⟩ := Exc.bind_ok_iff.1 hr
    cases hr; rfl
  induction props generalizing out0 with
  | nil => cases h; simp
  | cons kv props ih =>
    obtain ⟨name, p⟩ := kv
    unfold rawInputs at h
    obtain ⟨r, hr, h⟩ := Exc.bind_ok_iff.1 h
    have hrn := hname (kv := (name, p)) hr
    obtain ⟨h1, h2, h3, h4⟩ := ih h
    refine ⟨?_, ?_, ?_, ?_⟩
    · intro kv hkv
      rcases List.mem_cons.1 hkv with rfl | hkv
      · exact ⟨r, hr⟩
      · exact h1 kv hkv
    · intro k hk
      simp only [List.map_cons, List.mem_cons, not_or] at hk
      rw [h2 k hk.2, Dict.get?_set_ne]
      rw [hrn]; exact fun e => hk.1 e.symm
    · intro hn kv hkv r' hr'
      rw [List.map_cons, List.nodup_cons] at hn
      rcases List.mem_cons.1 hkv with rfl | hkv
      · rw [hr] at hr'
        cases hr'
        rw [h2 _ hn.1, ← hrn]
        exact Dict.get?_set_self _ _ _
      · exact h3 hn.2 kv hkv r' hr'
    · intro k
      rw [h4 k, Dict.mem_keys_set, hrn]
      simp only [List.map_cons, List.mem_cons]
      constructor
      · rintro ((h | h) | h) <;> simp [h]
      · rintro (h | h | h) <;> simp [h]

theorem rawInputs_isOk {R : Registry} {state : State} {wild : List String} {lens : Dict Nat}
    {props : PropDict} {out0 : Dict NDArray}
    (h : ∀ kv ∈ props, ∃ r, rawInput R state wild lens kv.1 kv.2 = .ok r) :
    ∃ out, rawInputs R state wild lens props out0 = .ok out := by
  induction props generalizing out0 with
  | nil => exact ⟨_, rfl⟩
  | cons kv props ih =>
    obtain ⟨name, p⟩ := kv
    obtain ⟨r, hr⟩ := h _ List.mem_cons_self
    unfold rawInputs
    rw [hr]
    exact ih (fun kv hkv => h kv (List.mem_cons_of_mem _ hkv))

/-- Everything a successful `getNumpyArrays` establishes, with the wildcard
match it used. -/
theorem getNumpyArrays_full {R : Registry} (hR : R.Faithful) {state : State}
    {props : PropDict} {out : Dict NDArray} (hwf : state.WF) (hsf : state.StarFree)
    (hone : OneStar props) (hkeys : (props.map outName).Nodup)
    (h : getNumpyArrays R state props = .ok out) :
    ∃ wl, getWildcard state props = .ok wl ∧ MatchInv state props [] wl.2 ∧
      wl.1.getD [] = wildSpec (requested state props) ∧
      (∀ kv ∈ props, ∀ d, kv.2.dims = some d → "*" ∈ d →
        wl.1 = some (wildSpec (requested state props))) ∧
      ∀ kv ∈ props, ∃ dims units a own raw,
        kv.2.dims = some dims ∧ kv.2.units = some units ∧
        Dict.get? state kv.1 = some (.da a) ∧ a.attrs.get? "units" = some own ∧
        out.get? (outName kv) = some raw ∧
        raw.shape = specShape dims (wildSpec (requested state props)) (lenOr1 wl.2) ∧
        ∀ ix : String → Nat, (∀ d ∈ dims, d ≠ "*" → ix d < lenOr1 wl.2 d) →
          ("*" ∈ dims → ∀ d ∈ wildSpec (requested state props), ix d < lenOr1 wl.2 d) →
          SamePhysical R units
            (raw.get (specIndex dims (wildSpec (requested state props)) (lenOr1 wl.2) ix)) own (a.at' ix) := by
  unfold getNumpyArrays at h
  obtain ⟨wl, hw, h⟩ := Exc.bind_ok_iff.1 h
  obtain ⟨inv, hwild, hnone⟩ := getWildcard_ok hwf hw
  obtain ⟨r1, r2, r3, r4⟩ := rawInputs_ok h
  have hwl : wl.1.getD [] = wildSpec (requested state props) := by
    rcases hwild with hwild | hwild
    · rw [hwild]; rfl
    · rw [hwild]
      show [] = _
      symm
      rw [List.eq_nil_iff_forall_not_mem]
      intro d hd
      obtain ⟨q, hq, hd1, hd2⟩ := mem_wildSpec.1 hd
      obtain ⟨kv, hkv, e1, e2⟩ := mem_requested.1 hq
      obtain ⟨dims, units, a, i1, i2, i3, i4, i5⟩ := inv.entry kv hkv
      rw [e1] at i3; cases i3
      rw [e2] at i1; cases i1
      rcases i5 d hd1 with h' | h'
      · exact hd2 h'
      · exact hnone.1 hwild kv hkv _ e2 h'
  have hstar : ∀ kv ∈ props, ∀ d, kv.2.dims = some d → "*" ∈ d →
      wl.1 = some (wildSpec (requested state props)) := by
    intro kv hkv d hd hs
    rcases hwild with hwild | hwild
    · exact hwild
    · exact absurd hs (hnone.1 hwild kv hkv d hd)
  refine ⟨wl, hw, inv, hwl, hstar, ?_⟩
  intro kv hkv
  obtain ⟨dims, units, a, e1, e2, e3, e4, e5⟩ := inv.entry kv hkv
  obtain ⟨r, hr⟩ := r1 kv hkv
  have hout := r3 hkeys kv hkv r hr
  rw [hwl] at hr
  have hsub : ∀ d ∈ a.dims, d ∈ dims ∨ ("*" ∈ dims ∧ d ∈ wildSpec (requested state props)) := by
    intro d hd
    by_cases hin : d ∈ dims
    · exact Or.inl hin
    · right
      refine ⟨(e5 d hd).resolve_left hin, ?_⟩
      exact mem_wildSpec.2 ⟨(a, dims), mem_requested.2 ⟨kv, hkv, e3, e1⟩, hd, hin⟩
  obtain ⟨_, s1, own, s2, s3⟩ := rawInput_ok hR hwf e1 e2 e3 e4 hsub (hone kv hkv dims e1)
    (hsf _ _ e3) hr
  exact ⟨dims, units, a, own, r.2, e1, e2, e3, s2, hout, s1, fun ix hb hbw =>
    s3 ix hb hbw⟩


end Verif

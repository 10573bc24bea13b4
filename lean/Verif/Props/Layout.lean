import Verif.Spec.Layout
import Verif.Props.RestoreArrays
import Verif.Props.Components
import Verif.Lemmas.ComponentCalls
import Verif.Props.InputArrays
import Mathlib.Tactic.Linarith
/-!
# C77: the order of a state's axes
-/

namespace Verif

theorem SameByName.symm {a b : DataArray} (h : SameByName a b) : SameByName b a where
  dims := h.dims.symm
  len := fun d hd => (h.len d (h.dims.mem_iff.2 hd)).symm
  attrs := h.attrs.symm
  val := fun ix hix => (h.val ix fun d hd => by rw [h.len d hd]; exact hix d (h.dims.mem_iff.1 hd)).symm

theorem SameByName.refl (a : DataArray) : SameByName a a := ⟨List.Perm.refl _, fun _ _ => rfl, rfl, fun _ _ => rfl⟩

theorem SameNamedVal.symm {v w : Option Val} (h : SameNamedVal v w) : SameNamedVal w v := by
  cases v with
  | none => cases w with
    | none => trivial
    | some w => exact h.elim
  | some v => cases w with
    | none => cases v <;> exact h.elim
    | some w =>
      cases v <;> cases w
      · exact SameByName.symm h
      · exact h.elim
      · exact h.elim
      · exact Eq.symm h

theorem SameNamedState.symm {s s' : State} (h : SameNamedState s s') : SameNamedState s' s := fun n => (h n).symm

theorem SameNamedState.da {s s' : State} (h : SameNamedState s s') {n : String} {a : DataArray}
    (ha : Dict.get? s n = some (.da a)) : ∃ b, Dict.get? s' n = some (.da b) ∧ SameByName a b := by
  have := h n
  rw [ha] at this
  cases hb : Dict.get? s' n with
  | none => rw [hb] at this; exact this.elim
  | some v =>
    rw [hb] at this
    cases v with
    | da b => exact ⟨b, rfl, this⟩
    | time t => exact this.elim

theorem SameNamedState.mem_keys {s s' : State} (h : SameNamedState s s') (n : String) :
    n ∈ Dict.keys s ↔ n ∈ Dict.keys s' := by
  have key : ∀ {s s' : State}, SameNamedState s s' → n ∈ Dict.keys s → n ∈ Dict.keys s' := by
    intro s s' h hn
    obtain ⟨v, hv⟩ := Dict.get?_of_mem_keys hn
    have := h n
    rw [hv] at this
    cases hb : Dict.get? s' n with
    | none => rw [hb] at this; cases v <;> exact this.elim
    | some w => exact Dict.mem_keys_of_get? hb
  exact ⟨key h, key h.symm⟩

section
variable {R : Registry} {s s' : State} {props : PropDict}

theorem requested_rel (h : SameNamedState s s') {q : DataArray × List String} (hq : q ∈ requested s props) :
    ∃ q' ∈ requested s' props, SameByName q.1 q'.1 ∧ q.2 = q'.2 := by
  obtain ⟨kv, hkv, h1, h2⟩ := mem_requested.1 hq
  obtain ⟨b, hb, hab⟩ := h.da h1
  exact ⟨(b, q.2), mem_requested.2 ⟨kv, hkv, hb, h2⟩, hab, rfl⟩

theorem mem_wildSpec_rel (h : SameNamedState s s') (d : String) :
    d ∈ wildSpec (requested s props) → d ∈ wildSpec (requested s' props) := by
  intro hd
  obtain ⟨q, hq, h1, h2⟩ := mem_wildSpec.1 hd
  obtain ⟨q', hq', e1, e2⟩ := requested_rel h hq
  exact mem_wildSpec.2 ⟨q', hq', e1.dims.mem_iff.1 h1, e2 ▸ h2⟩

/-- The wildcard stands for the same dims, possibly in another order. -/
theorem wildSpec_perm (h : SameNamedState s s') :
    (wildSpec (requested s props)).Perm (wildSpec (requested s' props)) :=
  (List.perm_ext_iff_of_nodup (nodup_wildSpec _) (nodup_wildSpec _)).2 fun d =>
    ⟨mem_wildSpec_rel h d, mem_wildSpec_rel h.symm d⟩

theorem lenSpec_rel (h : SameNamedState s s') {L L' : String → Nat} (hL : LenSpec (requested s props) L)
    (hL' : LenSpec (requested s' props) L') : L = L' := by
  funext d
  by_cases hd : ∃ q ∈ requested s props, d ∈ q.1.dims
  · obtain ⟨q, hq, hdq⟩ := hd
    obtain ⟨q', hq', e1, e2⟩ := requested_rel h hq
    rw [hL.1 q hq d hdq, hL'.1 q' hq' d (e1.dims.mem_iff.1 hdq), e1.len d hdq]
  · rw [hL.2 d fun q hq hdq => hd ⟨q, hq, hdq⟩]
    refine (hL'.2 d fun q hq hdq => hd ?_).symm
    obtain ⟨q', hq', e1, e2⟩ := requested_rel h.symm hq
    exact ⟨q', hq', e1.dims.mem_iff.1 hdq⟩

theorem starFree_rel (h : SameNamedState s s') (hs : s.StarFree) : s'.StarFree := by
  intro n a ha hstar
  obtain ⟨b, hb, hab⟩ := h.symm.da ha
  exact hs n b hb (hab.dims.mem_iff.1 hstar)

theorem validInputs_rel (h : SameNamedState s s') (hv : ValidInputs R s props) : ValidInputs R s' props := by
  refine ⟨?_, ?_, ?_⟩
  · intro kv hkv
    obtain ⟨dims, units, a, own, ua, ub, h1, h2, h3, h4, h5⟩ := hv.entry kv hkv
    obtain ⟨b, hb, hab⟩ := h.da h3
    exact ⟨dims, units, b, own, ua, ub, h1, h2, hb, hab.attrs ▸ h4, h5⟩
  · intro q hq q' hq' d hd hd'
    obtain ⟨r, hr, e1, _⟩ := requested_rel h.symm hq
    obtain ⟨r', hr', e1', _⟩ := requested_rel h.symm hq'
    rw [e1.len d hd, e1'.len d hd']
    exact hv.lengths r hr r' hr' d (e1.dims.mem_iff.1 hd) (e1'.dims.mem_iff.1 hd')
  · intro q hq hs d hd
    obtain ⟨r, hr, e1, e2⟩ := requested_rel h.symm hq
    rw [e2]
    exact hv.dims r hr (e2 ▸ hs) d (e1.dims.mem_iff.1 hd)

/-- The dims lists do not repeat a dim, and do not list one that a wildcard stands for. -/
structure PlainDims (state : State) (props : PropDict) : Prop where
  nodup : ∀ kv ∈ props, ∀ d, kv.2.dims = some d → d.Nodup
  disjoint : ∀ kv ∈ props, ∀ ds, kv.2.dims = some ds → "*" ∈ ds →
    ∀ d ∈ wildSpec (requested state props), d ∉ ds

theorem plainDims_rel (h : SameNamedState s s') (hp : PlainDims s props) : PlainDims s' props :=
  ⟨hp.nodup, fun kv hkv ds hds hs d hd => hp.disjoint kv hkv ds hds hs d (mem_wildSpec_rel h.symm d hd)⟩

/-- **C77, acceptance.**  Whether a state is accepted does not depend on the order of its axes. -/
theorem layout_accepted (hR : R.Faithful) (hwf : s.WF) (hwf' : s'.WF) (hsf : s.StarFree) (hp : PlainDims s props)
    (h : SameNamedState s s') :
    (∃ out, getNumpyArrays R s props = .ok out) ↔ ∃ out, getNumpyArrays R s' props = .ok out := by
  have key : ∀ {s s' : State}, s.WF → s'.WF → s.StarFree → PlainDims s props → SameNamedState s s' →
      (∃ out, getNumpyArrays R s props = .ok out) → ∃ out, getNumpyArrays R s' props = .ok out := by
    intro s s' hwf hwf' hsf hp h ⟨out, hout⟩
    have hv : ValidInputs R s props := by
      by_contra hv
      obtain ⟨e, he⟩ := invalid_inputs_rejected R hR s props hwf hv
      rw [he] at hout
      cases hout
    have hp' := plainDims_rel h hp
    exact valid_inputs_accepted R hR s' props hwf' (starFree_rel h hsf) hp'.nodup hp'.disjoint (validInputs_rel h hv)
  exact ⟨key hwf hwf' hsf hp h, key hwf' hwf (starFree_rel h hsf) (plainDims_rel h hp) h.symm⟩

theorem rawInputs_keyList {wild : List String} {lens : Dict Nat} {out0 out : Dict NDArray}
    (hn : (out0.keys ++ props.map outName).Nodup) (h : rawInputs R s wild lens props out0 = .ok out) :
    out.keys = out0.keys ++ props.map outName := by
  induction props generalizing out0 with
  | nil => cases h; simp
  | cons kv props ih =>
    obtain ⟨n, p⟩ := kv
    unfold rawInputs at h
    obtain ⟨r, hr, h⟩ := Exc.bind_ok_iff.1 h
    have hr1 : r.1 = outName (n, p) := by
      unfold rawInput at hr
      obtain ⟨du, _, hr⟩ := Exc.bind_ok_iff.1 hr
      obtain ⟨a', _, hr⟩ := Exc.bind_ok_iff.1 hr
      obtain ⟨arr, _, hr⟩ := Exc.bind_ok_iff.1 hr
      cases hr
      rfl
    have hnot : r.1 ∉ out0.keys := by
      rw [hr1]
      intro hm
      exact (List.nodup_append.1 hn).2.2 _ hm _ (List.mem_map.2 ⟨_, List.mem_cons_self, rfl⟩) rfl
    have hk : (out0.set r.1 r.2).keys = out0.keys ++ [outName (n, p)] := by
      rw [Dict.set_of_not_mem hnot]
      simp [Dict.keys, hr1]
    rw [ih ?_ h, hk]
    · simp
    · rw [hk]
      simpa using hn

theorem mem_outDimsSpec {dims W : List String} {d : String} :
    d ∈ outDimsSpec dims W ↔ (d ∈ dims ∧ d ≠ "*") ∨ ("*" ∈ dims ∧ d ∈ W) := by
  unfold outDimsSpec
  rw [List.mem_flatMap]
  constructor
  · rintro ⟨e, he, hd⟩
    by_cases hs : e = "*"
    · subst hs
      rw [if_pos rfl] at hd
      exact .inr ⟨he, hd⟩
    · rw [if_neg hs, List.mem_singleton] at hd
      subst hd
      exact .inl ⟨he, hs⟩
  · rintro (⟨h1, h2⟩ | ⟨h1, h2⟩)
    · exact ⟨d, h1, by rw [if_neg h2]; exact List.mem_singleton_self d⟩
    · exact ⟨"*", h1, by rw [if_pos rfl]; exact h2⟩

/-- **C77, inputs.**  A component is given the same values in the same places; only the
order in which a wildcard runs through its dims may differ. -/
theorem layout_inputs (hR : R.Faithful) (hwf : s.WF) (hwf' : s'.WF) (hsf : s.StarFree) (hone : OneStar props)
    (hkeys : (props.map outName).Nodup) (h : SameNamedState s s') {out out' : Dict NDArray}
    (ho : getNumpyArrays R s props = .ok out) (ho' : getNumpyArrays R s' props = .ok out') :
    ∃ L, LenSpec (requested s props) L ∧ LenSpec (requested s' props) L ∧
      SameInputs' props (wildSpec (requested s props)) (wildSpec (requested s' props)) L out out' := by
  obtain ⟨L, hL, hall⟩ := inputs_labelled_correctly R hR s props out hwf hsf hone hkeys ho
  obtain ⟨L', hL', hall'⟩ := inputs_labelled_correctly R hR s' props out' hwf' (starFree_rel h hsf) hone hkeys ho'
  cases lenSpec_rel h hL hL'
  refine ⟨L, hL, hL', ?_, ?_⟩
  · have hk : ∀ {s : State} {out : Dict NDArray}, getNumpyArrays R s props = .ok out → out.keys = props.map outName := by
      intro s out ho
      unfold getNumpyArrays at ho
      obtain ⟨wl, _, ho⟩ := Exc.bind_ok_iff.1 ho
      simpa [Dict.keys] using rawInputs_keyList (by simpa using hkeys) ho
    rw [hk ho, hk ho']
  · intro kv hkv dims hdims
    obtain ⟨dims1, units, a, own, raw, h1, h2, h3, h4, h5, h6, h7⟩ := hall kv hkv
    obtain ⟨dims2, units', a', own', raw', h1', h2', h3', h4', h5', h6', h7'⟩ := hall' kv hkv
    rw [hdims] at h1 h1'
    cases h1
    cases h1'
    rw [h2] at h2'
    cases h2'
    obtain ⟨b, hb, hab⟩ := h.da h3
    rw [h3'] at hb
    cases hb
    rw [← hab.attrs, h4] at h4'
    cases h4'
    refine ⟨raw, raw', h5, h5', h6, h6', fun ix hix => ?_⟩
    have b1 : ∀ d ∈ dims, d ≠ "*" → ix d < L d := fun d hd hs => hix d (mem_outDimsSpec.2 (.inl ⟨hd, hs⟩))
    have b2 : "*" ∈ dims → ∀ d ∈ wildSpec (requested s props), ix d < L d :=
      fun hs d hd => hix d (mem_outDimsSpec.2 (.inr ⟨hs, hd⟩))
    have b2' : "*" ∈ dims → ∀ d ∈ wildSpec (requested s' props), ix d < L d :=
      fun hs d hd => b2 hs d (mem_wildSpec_rel h.symm d hd)
    obtain ⟨x, y, hx, hy, _, e⟩ := h7 ix b1 b2
    obtain ⟨x', y', hx', hy', _, e'⟩ := h7' ix b1 b2'
    cases hx.symm.trans hx'
    cases hy.symm.trans hy'
    have hq : (a, dims) ∈ requested s props := mem_requested.2 ⟨kv, hkv, h3, hdims⟩
    have hval : a.at' ix = a'.at' ix := by
      refine hab.val ix fun d hd => ?_
      rw [← hL.1 _ hq d hd]
      by_cases hin : d ∈ dims
      · exact b1 d hin fun e => hsf _ _ h3 (e ▸ hd)
      · by_cases hs : "*" ∈ dims
        · exact b2 hs d (mem_wildSpec.2 ⟨_, hq, hd, hin⟩)
        · have hv : ValidInputs R s props := by
            by_contra hv
            obtain ⟨e, he⟩ := invalid_inputs_rejected R hR s props hwf hv
            rw [he] at ho
            cases ho
          exact absurd (hv.dims _ hq hs d hd) hin
    rw [← hval] at e'
    have hsc := x.scale_pos
    have : raw.get (specIndex dims (wildSpec (requested s props)) L ix) * x.scale =
        raw'.get (specIndex dims (wildSpec (requested s' props)) L ix) * x.scale := by linarith
    exact mul_right_cancel₀ (ne_of_gt hsc) this

theorem len_of_shape {a : DataArray} {L : String → Nat} (h : a.arr.shape = a.dims.map L) {d : String} (hd : d ∈ a.dims) :
    a.len d = L d := by
  unfold DataArray.len DataArray.named
  rw [h, List.getD_eq_getElem?_getD, List.getElem?_map,
    List.getElem?_eq_getElem (List.idxOf_lt_length_of_mem hd), List.getElem_idxOf]
  rfl

theorem inB_map_lt {l : List String} {ix L : String → Nat} (h : ∀ d ∈ l, ix d < L d) : InB (l.map ix) (l.map L) := by
  induction l with
  | nil => trivial
  | cons d l ih => exact ⟨h d List.mem_cons_self, ih fun e he => h e (List.mem_cons_of_mem _ he)⟩

theorem outDimsSpec_perm (dims : List String) {W W' : List String} (h : W.Perm W') :
    (outDimsSpec dims W).Perm (outDimsSpec dims W') := by
  unfold outDimsSpec
  refine List.Perm.flatMap_left dims fun d _ => ?_
  split
  · exact h
  · exact List.Perm.refl _

/-- **C77, outputs.**  Raw outputs with the same values in the same places are given to
the caller as the same quantities. -/
theorem layout_outputs {inP outP : PropDict} {ign : List String} (hwf : s.WF) (hwf' : s'.WF) (hsf : s.StarFree)
    (hg : GoodOutputs inP outP) (h : SameNamedState s s')
    (hin : ∃ out, getNumpyArrays R s inP = .ok out) (hin' : ∃ out, getNumpyArrays R s' inP = .ok out)
    {L : String → Nat} (hL : LenSpec (requested s inP) L) (hL' : LenSpec (requested s' inP) L)
    {raw raw' : Dict NDArray}
    (ho : SameOutputs inP outP ign (fun n => getAliasOrName n outP inP) (wildSpec (requested s inP))
      (wildSpec (requested s' inP)) L raw raw') :
    ∃ out out', restoreDataArrays raw outP s inP ign false = .ok out ∧
      restoreDataArrays raw' outP s' inP ign false = .ok out' ∧ SameNamedDict out out' := by
  obtain ⟨hn, hgood⟩ := hg
  obtain ⟨_, M, hM1, hM2, hM⟩ := ho
  have hMq : ∀ {s' : State}, SameNamedState s s' → LenSpec (requested s' inP) L →
      ∀ q ∈ requested s' inP, ∀ d ∈ q.1.dims, M d = q.1.len d := by
    intro s' h hL' q hq d hd
    rw [← hL'.1 q hq d hd]
    obtain ⟨kv, hkv, k1, k2⟩ := mem_requested.1 hq
    by_cases hin : d ∈ q.2
    · exact hM2 kv hkv q.2 k2 d hin fun e => starFree_rel h hsf _ _ k1 (e ▸ hd)
    · exact hM1 d (mem_wildSpec_rel h.symm d (mem_wildSpec.2 ⟨q, hq, hd, hin⟩))
  have hr : SameNamedState s s := by
    intro n
    cases hv : Dict.get? s n with
    | none => trivial
    | some v => cases v with
      | da a => exact SameByName.refl a
      | time t => rfl
  obtain ⟨r0, hr0⟩ := hin
  obtain ⟨r0', hr0'⟩ := hin'
  obtain ⟨out, e1, f1⟩ := restored_values s inP outP raw ign M hwf hn ⟨R, r0, hr0⟩ (hMq hr hL) (by
    intro kv hkv hi
    obtain ⟨dims, units, g1, g2, g3, g4⟩ := hgood kv hkv
    obtain ⟨a, a', m1, m2, m3⟩ := hM kv hkv hi dims g1
    exact ⟨dims, units, a, g1, g2, g3, g4, m1, m3.shape⟩)
  obtain ⟨out', e2, f2⟩ := restored_values s' inP outP raw' ign M hwf' hn ⟨R, r0', hr0'⟩ (hMq h hL') (by
    intro kv hkv hi
    obtain ⟨dims, units, g1, g2, g3, g4⟩ := hgood kv hkv
    obtain ⟨a, a', m1, m2, m3⟩ := hM kv hkv hi dims g1
    exact ⟨dims, units, a', g1, g2, g3, g4, m2, m3.shape'⟩)
  refine ⟨out, out', e1, e2, fun n => ?_⟩
  by_cases hk : n ∈ outP.keys ∧ n ∉ ign
  · obtain ⟨p, hp⟩ := Dict.get?_of_mem_keys hk.1
    have hm := Dict.mem_of_get? hp
    obtain ⟨dims, units, a, da, a1, a2, a3, a4, a5, a6, a7, a8⟩ := f1 _ hm hk.2
    obtain ⟨dims', units', b, db, b1, b2, b3, b4, b5, b6, b7, b8⟩ := f2 _ hm hk.2
    rw [a1] at b1; cases b1
    rw [a2] at b2; cases b2
    obtain ⟨x, x', m1, m2, m3⟩ := hM _ hm hk.2 dims a1
    rw [m1] at a3; cases a3
    rw [m2] at b3; cases b3
    simp only at a4 b4
    rw [a4, b4]
    have hperm : da.dims.Perm db.dims := by rw [a6, b6]; exact outDimsSpec_perm dims (wildSpec_perm h)
    refine ⟨hperm, fun d hd => ?_, by rw [a5, b5], fun ix hix => ?_⟩
    · rw [len_of_shape a7 hd, len_of_shape b7 (hperm.mem_iff.1 hd)]
    · have hlt : ∀ d ∈ da.dims, ix d < M d := fun d hd => by rw [← len_of_shape a7 hd]; exact hix d hd
      rw [a8 ix (by rw [a7]; exact inB_map_lt hlt),
        b8 ix (by rw [b7]; exact inB_map_lt fun d hd => hlt d (hperm.mem_iff.2 hd))]
      exact m3.val ix (a6 ▸ hlt)
  · have h1 : Dict.get? out n = none := (Dict.get?_eq_none_iff _ _).2 fun hm => hk ((restore_keys hn e1 n).1 hm)
    have h2 : Dict.get? out' n = none := (Dict.get?_eq_none_iff _ _).2 fun hm => hk ((restore_keys hn e2 n).1 hm)
    rw [h1, h2]
    trivial

theorem SameNamedDict.set {d d' : Dict DataArray} (h : SameNamedDict d d') (k : String) {a b : DataArray}
    (hab : SameByName a b) : SameNamedDict (Dict.set d k a) (Dict.set d' k b) := by
  intro n
  rw [Dict.get?_set, Dict.get?_set]
  split
  · exact hab
  · exact h n

/-! ## Components -/

/-- What C77 needs of a component class: it takes no tracers, its inputs have distinct keys and
at most one wildcard each, and its outputs are well declared. -/
structure PlainClass (c : Class) (i : Inst) : Prop where
  packer : i.packer = none
  one : OneStar c.inProps
  keys : (c.inProps.map outName).Nodup
  outs : GoodOutputs c.inProps c.outProps
  diags : GoodOutputs c.inProps c.diagProps

/-- A pair of states differing in axis order. -/
structure SameAxes (s s' : State) (props : PropDict) : Prop where
  same : SameNamedState s s'
  wf : s.WF
  wf' : s'.WF
  star : s.StarFree
  dims : PlainDims s props
  time : ∀ a, Dict.get? s "time" ≠ some (.da a)

theorem prepare_layout (hR : R.Faithful) (g : Tracers) {c : Class} {i : Inst} (hc : PlainClass c i)
    (h : SameAxes s s' c.inProps) :
    (∃ e e', prepare R g c i s = .error e ∧ prepare R g c i s' = .error e') ∨
    ∃ raw raw' L, prepare R g c i s = .ok raw ∧ prepare R g c i s' = .ok raw' ∧ raw.time = raw'.time ∧
      (∃ out, getNumpyArrays R s c.inProps = .ok out) ∧ (∃ out, getNumpyArrays R s' c.inProps = .ok out) ∧
      LenSpec (requested s c.inProps) L ∧ LenSpec (requested s' c.inProps) L ∧
      SameInputs' c.inProps (wildSpec (requested s c.inProps)) (wildSpec (requested s' c.inProps)) L
        raw.arrays raw'.arrays := by
  have hchk : checkInputs c.inProps s = checkInputs c.inProps s' := by
    unfold checkInputs
    simp only [h.same.mem_keys]
  have htime : Dict.get s "time" = Dict.get s' "time" := by
    unfold Dict.get
    have := h.same "time"
    cases h1 : Dict.get? s "time" with
    | none =>
      rw [h1] at this
      cases h2 : Dict.get? s' "time" with
      | none => rfl
      | some w => rw [h2] at this; exact this.elim
    | some v =>
      cases v with
      | da a => exact absurd h1 (h.time a)
      | time t =>
        rw [h1] at this
        cases h2 : Dict.get? s' "time" with
        | none => rw [h2] at this; exact this.elim
        | some w =>
          rw [h2] at this
          cases w with
          | da a => exact this.elim
          | time t' => cases (show t = t' from this); rfl
  have hacc := layout_accepted (props := c.inProps) hR h.wf h.wf' h.star h.dims h.same
  unfold prepare
  rw [hchk, htime, hc.packer]
  cases checkInputs c.inProps s' with
  | error e => exact .inl ⟨e, e, rfl, rfl⟩
  | ok u =>
    simp only [Exc.ok_bind]
    cases hg : getNumpyArrays R s c.inProps with
    | error e =>
      cases hg' : getNumpyArrays R s' c.inProps with
      | error e' => exact .inl ⟨e, e', rfl, rfl⟩
      | ok out' =>
        obtain ⟨out, ho⟩ := hacc.2 ⟨out', hg'⟩
        rw [hg] at ho
        cases ho
    | ok out =>
      obtain ⟨out', hg'⟩ := hacc.1 ⟨out, hg⟩
      rw [hg']
      simp only [Exc.ok_bind]
      cases Dict.get s' "time" with
      | error e => exact .inl ⟨e, e, rfl, rfl⟩
      | ok t =>
        obtain ⟨L, hL, hL', hin⟩ := layout_inputs hR h.wf h.wf' h.star hc.one hc.keys h.same hg hg'
        exact .inr ⟨⟨out, t⟩, ⟨out', t⟩, L, rfl, rfl, rfl, ⟨out, rfl⟩, ⟨out', rfl⟩, hL, hL', hin⟩

theorem checkRaw_keys {inP outP : PropDict} {ign : List String} {raw raw' : Dict NDArray} (h : raw.keys = raw'.keys) :
    checkRaw inP outP ign raw = checkRaw inP outP ign raw' := by
  unfold checkRaw checkMissing checkExtra
  rw [h]

/-- An `array_call` returning two dictionaries, of `P1` and `P2`, that does not depend
on the order of the dims within the wildcard, and returns the declared shapes. -/
def AxisBlind {σ : Type} (c : Class) (P1 P2 : PropDict) (ign1 ign2 : List String)
    (ac : σ → RawState → σ × Except Err (Dict NDArray × Dict NDArray)) : Prop :=
  ∀ (W W' : List String) (L : String → Nat) s raw raw', W.Perm W' → raw.time = raw'.time →
    SameInputs' c.inProps W W' L raw.arrays raw'.arrays →
    (ac s raw).1 = (ac s raw').1 ∧ Exc.Rel (fun r r' =>
      SameOutputs c.inProps P1 ign1 (fun n => getAliasOrName n P1 c.inProps) W W' L r.1 r'.1 ∧
      SameOutputs c.inProps P2 ign2 (fun n => getAliasOrName n P2 c.inProps) W W' L r.2 r'.2) (ac s raw).2 (ac s raw').2

theorem SameNamedDict.cases {d d' : Dict DataArray} (h : SameNamedDict d d') (n : String) :
    (d.get? n = none ∧ d'.get? n = none) ∨ ∃ a b, d.get? n = some a ∧ d'.get? n = some b ∧ SameByName a b := by
  have := h n
  cases h1 : d.get? n with
  | none => cases h2 : d'.get? n with
    | none => exact .inl ⟨rfl, rfl⟩
    | some b => rw [h1, h2] at this; exact this.elim
  | some a => cases h2 : d'.get? n with
    | none => rw [h1, h2] at this; exact this.elim
    | some b => rw [h1, h2] at this; exact .inr ⟨a, b, rfl, rfl, this⟩

theorem insertTendencies_same (inst : String) {d d' e e' : Dict DataArray} (hd : SameNamedDict d d')
    (hk : d.keys.Nodup) (hk' : d'.keys.Nodup) (he : SameNamedDict e e') :
    SameNamedDict (insertTendencies inst d e) (insertTendencies inst d' e') := by
  intro k
  by_cases hm : ∃ n ∈ d.keys, k = tendencyName n inst
  · obtain ⟨n, hn, rfl⟩ := hm
    obtain ⟨v, hv⟩ := Dict.get?_of_mem_keys hn
    rcases hd.cases n with ⟨h1, _⟩ | ⟨a, b, h1, h2, hab⟩
    · rw [h1] at hv; cases hv
    · rw [(insertTendencies_get? hk).1 n a h1, (insertTendencies_get? hk').1 n b h2]
      exact hab
  · rw [(insertTendencies_get? hk).2 k fun n hn e => hm ⟨n, hn, e⟩, (insertTendencies_get? hk').2 k fun n hn e => hm ?_]
    · exact he k
    · obtain ⟨v, hv⟩ := Dict.get?_of_mem_keys hn
      rcases hd.cases n with ⟨_, h2⟩ | ⟨a, b, h1, h2, hab⟩
      · rw [h2] at hv; cases hv
      · exact ⟨n, Dict.mem_keys_of_get? h1, e⟩

theorem update_nil_same {d d' : Dict DataArray} (hn : d.keys.Nodup) (hn' : d'.keys.Nodup) (h : SameNamedDict d d') :
    SameNamedDict (Dict.update [] d) (Dict.update [] d') := by
  intro k
  rw [Dict.get?_update _ _ hn, Dict.get?_update _ _ hn']
  simpa using h k

theorem Exc.Rel.both_bind {α β : Type} {P : α → α → Prop} {Q : β → β → Prop} {x y : Except Err α}
    {f g : α → Except Err β} (h : Exc.Rel P x y) (hfg : ∀ a b, P a b → Exc.Both Q (f a) (g b)) :
    Exc.Both Q (x >>= f) (y >>= g) := by
  cases x <;> cases y
  · trivial
  · exact h.elim
  · exact h.elim
  · exact hfg _ _ h

/-- What `array_call` may not depend on, for the two dictionaries it returns. -/
theorem call_axis_order {σ β : Type} (hR : R.Faithful) (g : Tracers) {c : Class} {i : Inst} (hc : PlainClass c i)
    {P1 P2 : PropDict} {ign1 ign2 : List String} {ac : σ → RawState → σ × Except Err (Dict NDArray × Dict NDArray)}
    (hac : AxisBlind c P1 P2 ign1 ign2 ac) (h : SameAxes s s' c.inProps) (x : σ)
    (h1 : GoodOutputs c.inProps P1) (h2 : GoodOutputs c.inProps P2)
    {fin : State → Dict NDArray → Dict NDArray → Dict NDArray → Except Err β} {Q : β → β → Prop}
    (hfin : ∀ r r' : Dict NDArray × Dict NDArray, ∀ w w', r.1.keys = r'.1.keys → r.2.keys = r'.2.keys →
      (∃ t t', restoreDataArrays r.1 P1 s c.inProps ign1 false = .ok t ∧
        restoreDataArrays r'.1 P1 s' c.inProps ign1 false = .ok t' ∧ SameNamedDict t t') →
      (∃ t t', restoreDataArrays r.2 P2 s c.inProps ign2 false = .ok t ∧
        restoreDataArrays r'.2 P2 s' c.inProps ign2 false = .ok t' ∧ SameNamedDict t t') →
      Exc.Both Q (fin s w r.1 r.2) (fin s' w' r'.1 r'.2)) :
    let call : State → σ × Except Err β := fun s => match prepare R g c i s with
      | .error e => (x, .error e)
      | .ok raw => ((ac x raw).1, (ac x raw).2 >>= fun r => fin s raw.arrays r.1 r.2)
    (call s).1 = (call s').1 ∧ Exc.Both Q (call s).2 (call s').2 := by
  dsimp only
  rcases prepare_layout hR g hc h with ⟨e, e', p1, p2⟩ | ⟨raw, raw', L, p1, p2, ht, hi, hi', hL, hL', hin⟩
  · rw [p1, p2]; exact ⟨rfl, trivial⟩
  · rw [p1, p2]
    obtain ⟨hx, hr⟩ := hac _ _ L x raw raw' (wildSpec_perm h.same) ht hin
    refine ⟨hx, hr.both_bind ?_⟩
    rintro r r' ⟨hr1, hr2⟩
    exact hfin r r' raw.arrays raw'.arrays hr1.1 hr2.1
      (layout_outputs h.wf h.wf' h.star h1 h.same hi hi' hL hL' hr1)
      (layout_outputs h.wf h.wf' h.star h2 h.same hi hi' hL hL' hr2)

/-- **C77.**  A component called with a state whose arrays have their axes in another
order changes the world the same way and returns the same quantities (with axes possibly
in another order), or raises an exception for both; provided its `array_call` does not
depend on the order in which a wildcard runs through its dims (see
`axis_order_matters_along_wildcard`). -/
theorem components_axis_order {σ : Type} (hR : R.Faithful) (g : Tracers) {c : Class} {i : Inst} (hc : PlainClass c i)
    (h : SameAxes s s' c.inProps) (x : σ) :
    (∀ ac, AxisBlind c c.outProps c.diagProps [] i.ignored ac →
      (callTendency R g c i ac x s).1 = (callTendency R g c i ac x s').1 ∧
      Exc.Both (fun r r' => SameNamedDict r.1 r'.1 ∧ SameNamedDict r.2 r'.2)
        (callTendency R g c i ac x s).2 (callTendency R g c i ac x s').2) ∧
    (∀ ac (dt : Int), i.tid = false → AxisBlind c c.diagProps c.outProps [] [] (fun x raw => ac x raw dt) →
      (callStepper R g c i ac x s dt).1 = (callStepper R g c i ac x s' dt).1 ∧
      Exc.Both (fun r r' => SameNamedDict r.1 r'.1 ∧ SameNamedDict r.2 r'.2)
        (callStepper R g c i ac x s dt).2 (callStepper R g c i ac x s' dt).2) ∧
    (∀ ac, AxisBlind c c.diagProps [] [] [] (fun x raw => ((ac x raw).1, (ac x raw).2 >>= fun d => .ok (d, []))) →
      (callDiagnostic R g c i ac x s).1 = (callDiagnostic R g c i ac x s').1 ∧
      Exc.Both SameNamedDict (callDiagnostic R g c i ac x s).2 (callDiagnostic R g c i ac x s').2) := by
  refine ⟨fun ac hac => ?_, fun ac dt htid hac => ?_, fun ac hac => ?_⟩
  · refine call_axis_order hR g hc hac h x hc.outs hc.diags (fin := fun s _ r1 r2 => finishTendency g c i s r1 r2) ?_
    intro r r' _ _ k1 k2 ⟨t, t', e1, e2, e3⟩ ⟨d, d', f1, f2, f3⟩
    unfold finishTendency takeTracers
    rw [hc.packer]
    simp only [Exc.ok_bind]
    rw [checkRaw_keys k1, checkRaw_keys k2]
    cases checkRaw c.inProps c.outProps [] r'.1 with
    | error e => trivial
    | ok _ =>
      cases checkRaw c.inProps c.diagProps i.ignored r'.2 with
      | error e => trivial
      | ok _ =>
        simp only [Exc.ok_bind]
        rw [e1, e2, f1, f2]
        simp only [Exc.ok_bind]
        refine ⟨update_nil_same (restore_nodup e1) (restore_nodup e2) e3, ?_⟩
        dsimp only
        split
        · exact insertTendencies_same _ (update_nil_same (restore_nodup e1) (restore_nodup e2) e3) (Dict.nodup_keys_update (by simp) _)
            (Dict.nodup_keys_update (by simp) _) f3
        · exact f3
  · refine call_axis_order hR g hc hac h x hc.diags hc.outs
      (fin := fun s w r1 r2 => finishStepper g c i s dt w r1 r2) ?_
    intro r r' _ _ k1 k2 ⟨d, d', f1, f2, f3⟩ ⟨t, t', e1, e2, e3⟩
    unfold finishStepper takeTracers
    rw [hc.packer, htid]
    simp only [Exc.ok_bind]
    rw [checkRaw_keys k1, checkRaw_keys k2]
    cases checkRaw c.inProps c.diagProps i.ignored r'.1 with
    | error e => trivial
    | ok _ =>
      cases checkRaw c.inProps c.outProps [] r'.2 with
      | error e => trivial
      | ok _ =>
        simp only [Exc.ok_bind, Bool.false_eq_true, if_false]
        rw [e1, e2, f1, f2]
        exact ⟨f3, update_nil_same (restore_nodup e1) (restore_nodup e2) e3⟩
  · have := call_axis_order hR g hc hac h x hc.diags ⟨List.nodup_nil, fun kv hkv => (by cases hkv)⟩
      (fin := fun s _ r1 _ => finishDiagnostic c i s r1) (Q := SameNamedDict) (by
        intro r r' _ _ k1 k2 ⟨d, d', f1, f2, f3⟩ _
        unfold finishDiagnostic
        rw [checkRaw_keys k1, f1, f2]
        cases checkRaw c.inProps c.diagProps i.ignored r'.1 with
        | error e => trivial
        | ok _ => exact f3)
    have hb : ∀ (y : Except Err (Dict NDArray)) (s : State), ((y >>= fun d => .ok (d, [])) >>= fun r : Dict NDArray × Dict NDArray =>
        finishDiagnostic c i s r.1) = (y >>= fun r => finishDiagnostic c i s r) := by
      intro y s
      cases y <;> rfl
    simp only [hb] at this
    exact this

end

namespace Demo

/-- `temp` with axes (y, z, x) instead of (x, z, y). -/
def tempT : DataArray :=
  { dims := ["y", "z", "x"]
    arr := ⟨[2, 3, 2], fun i => (i.getD 2 0 : Nat) * 100 + (i.getD 1 0 : Nat) * 10 + (i.getD 0 0 : Nat)⟩
    attrs := [("units", "K"), ("long_name", "temperature")] }

def stateT : State := [("time", .time 0), ("h", .da prof), ("T", .da tempT)]

theorem temp_same : SameByName temp tempT where
  dims := by decide
  len := by decide +kernel
  attrs := rfl
  val := fun _ _ => rfl

theorem stateT_same : SameNamedState state stateT := by
  intro n
  unfold state stateT
  simp only [Dict.get?_cons]
  by_cases h1 : n = "T"
  · subst h1; exact temp_same
  by_cases h2 : n = "h"
  · subst h2; exact SameByName.refl _
  by_cases h3 : n = "time"
  · subst h3; rfl
  rw [if_neg (Ne.symm h1), if_neg (Ne.symm h2), if_neg (Ne.symm h3), if_neg (Ne.symm h3), if_neg (Ne.symm h2),
    if_neg (Ne.symm h1)]
  trivial

theorem stateT_wf : stateT.WF := by
  intro n a h
  have := Dict.mem_of_get? h
  simp only [stateT, List.mem_cons, Prod.mk.injEq, List.not_mem_nil, or_false] at this
  rcases this with h | h | h
  · obtain ⟨_, h⟩ := h; cases h
  · obtain ⟨_, h⟩ := h; cases h; exact ⟨rfl, by decide⟩
  · obtain ⟨_, h⟩ := h; cases h; exact ⟨rfl, by decide⟩

theorem state_axes : SameAxes state stateT cls.inProps where
  same := stateT_same
  wf := state_wf
  wf' := stateT_wf
  star := by
    intro n a h
    have := Dict.mem_of_get? h
    simp only [state, List.mem_cons, Prod.mk.injEq, List.not_mem_nil, or_false] at this
    rcases this with h | h | h
    · obtain ⟨_, h⟩ := h; cases h; decide
    · obtain ⟨_, h⟩ := h; cases h; decide
    · obtain ⟨_, h⟩ := h; cases h
  dims := by
    constructor
    · have : ∀ kv ∈ cls.inProps, ∀ d ∈ kv.2.dims.toList, d.Nodup := by decide
      exact fun kv hkv d hd => this kv hkv d (by rw [hd]; simp)
    · have : ∀ kv ∈ cls.inProps, ∀ ds ∈ kv.2.dims.toList, "*" ∈ ds →
          ∀ d ∈ wildSpec (requested state cls.inProps), d ∉ ds := by decide +kernel
      exact fun kv hkv d hd => this kv hkv d (by rw [hd]; simp)
  time := fun a h => by cases h

def plainInst : Inst := ⟨"me", false, [], none⟩

theorem cls_plain : PlainClass cls plainInst where
  packer := rfl
  one := by
    have : ∀ kv ∈ cls.inProps, ∀ d ∈ kv.2.dims.toList, d.count "*" ≤ 1 := by decide
    exact fun kv hkv d hd => this kv hkv d (by rw [hd]; simp)
  keys := by decide
  outs := by
    refine ⟨by decide, ?_⟩
    intro kv hkv
    simp only [cls, List.mem_singleton] at hkv
    subst hkv
    exact ⟨["z", "*"], "K s^-1", rfl, rfl, by decide, fun _ => ⟨_, List.mem_cons_self, _, rfl, by decide⟩⟩
  diags := by
    refine ⟨by decide, ?_⟩
    intro kv hkv
    simp only [cls, List.mem_singleton] at hkv
    subst hkv
    exact ⟨["z"], "m", rfl, rfl, by decide, fun h => absurd h (by decide)⟩

/-- `ac` works point by point. -/
theorem ac_blind : AxisBlind cls cls.outProps cls.diagProps [] [] ac := by
  intro W W' L s raw raw' _ _ hin
  obtain ⟨a, a', h1, h2, h3⟩ := hin.2 ("T", _) List.mem_cons_self ["z", "*"] rfl
  obtain ⟨b, b', k1, k2, k3⟩ := hin.2 ("h", _) (List.mem_cons_of_mem _ List.mem_cons_self) ["z"] rfl
  have e1 : raw.arrays.get "temp" = .ok a := Dict.get_eq_ok.2 h1
  have e2 : raw'.arrays.get "temp" = .ok a' := Dict.get_eq_ok.2 h2
  have e3 : raw.arrays.get "h" = .ok b := Dict.get_eq_ok.2 k1
  have e4 : raw'.arrays.get "h" = .ok b' := Dict.get_eq_ok.2 k2
  unfold ac
  rw [e1, e2, e3, e4]
  refine ⟨rfl, ⟨rfl, L, fun _ _ => rfl, fun _ _ _ _ _ _ _ => rfl, ?_⟩, ⟨rfl, L, fun _ _ => rfl, fun _ _ _ _ _ _ _ => rfl, ?_⟩⟩
  · intro kv hkv _ dims hd
    simp only [cls, List.mem_singleton] at hkv
    subst hkv
    cases hd
    refine ⟨_, _, rfl, rfl, h3.shape, h3.shape', fun ix hix => ?_⟩
    show 2 * a.get _ = 2 * a'.get _
    rw [h3.val ix hix]
  · intro kv hkv _ dims hd
    simp only [cls, List.mem_singleton] at hkv
    subst hkv
    cases hd
    exact ⟨_, _, rfl, rfl, k3⟩

/-- Returns at every wildcard position the value at position 1. -/
def acFixed : Nat → RawState → Nat × Except Err (Dict NDArray × Dict NDArray) := fun n raw =>
  (n + 1, raw.arrays.get "temp" >>= fun t => raw.arrays.get "h" >>= fun h =>
    .ok ([("temp", ⟨t.shape, fun idx => t.get [idx.getD 0 0, 1]⟩)], [("h2", h)]))

end Demo

open Demo in
/-- The hypotheses of `layout_accepted` and `layout_inputs` hold of the two states, and both are accepted. -/
example : PlainDims state cls.inProps ∧ OneStar cls.inProps ∧ SameNamedState state stateT ∧
    Exc.test (getNumpyArrays reg state cls.inProps) (fun o => o.keys == ["temp", "h"]) = true ∧
    Exc.test (getNumpyArrays reg stateT cls.inProps) (fun o => o.keys == ["temp", "h"]) = true :=
  ⟨state_axes.dims, cls_plain.one, stateT_same, by decide +kernel, by decide +kernel⟩

open Demo in
/-- The tendency is the same by name, with its axes in another order. -/
example : Exc.Both (fun r r' => SameNamedDict r.1 r'.1 ∧ SameNamedDict r.2 r'.2)
      (callTendency reg {} cls plainInst ac 0 state).2 (callTendency reg {} cls plainInst ac 0 stateT).2 ∧
    Exc.test (callTendency reg {} cls plainInst ac 0 state).2
      (fun r => (r.1.get? "T").map (fun a => (a.dims, a.arr.get [2, 1, 0])) == some (["z", "x", "y"], 240)) = true ∧
    Exc.test (callTendency reg {} cls plainInst ac 0 stateT).2
      (fun r => (r.1.get? "T").map (fun a => (a.dims, a.arr.get [2, 0, 1])) == some (["z", "y", "x"], 240)) = true :=
  ⟨((components_axis_order reg_faithful {} cls_plain state_axes 0).1 ac ac_blind).2, by decide +kernel, by decide +kernel⟩

open Demo in
/-- **C77, the proviso.**  A wildcard runs through its dims in the order in which the
state's arrays have them, so an `array_call` that uses positions along the wildcard
gives other results for the same state with axes in another order. -/
theorem axis_order_matters_along_wildcard :
    PlainClass cls plainInst ∧ SameAxes state stateT cls.inProps ∧
    ∃ r r', (callTendency reg {} cls plainInst acFixed 0 state).2 = .ok r ∧
      (callTendency reg {} cls plainInst acFixed 0 stateT).2 = .ok r' ∧ ¬ SameNamedDict r.1 r'.1 := by
  refine ⟨cls_plain, state_axes, ?_⟩
  have h1 : Exc.test (callTendency reg {} cls plainInst acFixed 0 state).2 (fun r => (r.1.get? "T").any fun a =>
      a.dims == ["z", "x", "y"] && a.arr.shape == [3, 2, 2] && a.arr.get [0, 0, 0] == 1) = true := by decide +kernel
  have h2 : Exc.test (callTendency reg {} cls plainInst acFixed 0 stateT).2 (fun r => (r.1.get? "T").any fun a =>
      a.dims == ["z", "y", "x"] && a.arr.get [0, 0, 0] == 100) = true := by decide +kernel
  obtain ⟨r, hr, h1⟩ := Exc.test_ok h1
  obtain ⟨r', hr', h2⟩ := Exc.test_ok h2
  refine ⟨r, r', hr, hr', fun hs => ?_⟩
  rcases SameNamedDict.cases hs "T" with ⟨k1, _⟩ | ⟨a, b, k1, k2, hab⟩
  · rw [k1] at h1; cases h1
  · rw [k1] at h1
    rw [k2] at h2
    simp only [Option.any_some, Bool.and_eq_true, beq_iff_eq] at h1 h2
    have hv := hab.val (fun _ => 0) (by
      intro d hd
      have hd' : d ∈ ["z", "x", "y"] := h1.1.1 ▸ hd
      unfold DataArray.len DataArray.named
      rw [h1.1.1, h1.1.2]
      clear hd
      revert d
      decide)
    unfold DataArray.at' at hv
    rw [h1.1.1, h2.1] at hv
    have : (1 : Rat) = 100 := by rw [← h1.2, ← h2.2]; exact hv
    exact absurd this (by decide +kernel)

end Verif

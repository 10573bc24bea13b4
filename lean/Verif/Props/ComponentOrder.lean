import Verif.Spec.ComponentOrder
import Verif.Props.RunsComplete
import Verif.Props.Layout
import Mathlib.Data.Option.Basic
/-!
# C100, part 1: time steppers on states and tendencies that agree by name

If one step succeeds, so does the other, with results that agree by name.
-/

namespace Verif

/-- If the first succeeds, so does the second, with a related result. -/
def Sim {α β : Type} (P : α → β → Prop) (x : Except Err α) (y : Except Err β) : Prop :=
  ∀ a, x = .ok a → ∃ b, y = .ok b ∧ P a b

section
variable {α β γ δ : Type} {P : α → β → Prop} {Q : γ → δ → Prop}

theorem Sim.bind {x : Except Err α} {y : Except Err β} (h : Sim P x y) {f : α → Except Err γ} {g : β → Except Err δ}
    (hf : ∀ a b, P a b → Sim Q (f a) (g b)) : Sim Q (x >>= f) (y >>= g) := by
  intro c hc
  obtain ⟨a, ha, hc⟩ := Exc.bind_ok_iff.1 hc
  obtain ⟨b, hb, hab⟩ := h a ha
  obtain ⟨d, hd, hcd⟩ := hf a b hab c hc
  exact ⟨d, by rw [hb]; exact hd, hcd⟩

theorem Sim.ok {a : α} {b : β} (h : P a b) : Sim P (.ok a) (.ok b) := by
  intro c hc
  cases hc
  exact ⟨b, rfl, h⟩

theorem Sim.error {e : Err} {y : Except Err β} : Sim P (.error e) y := fun _ h => by cases h

theorem Exc.Both.sim {x : Except Err α} {y : Except Err β} (h : Exc.Both P x y) : Sim P x y := by
  intro a ha
  subst ha
  cases y with
  | error e => exact h.elim
  | ok b => exact ⟨b, rfl, h⟩

theorem Exc.Both.symm {x : Except Err α} {y : Except Err β} (h : Exc.Both P x y) :
    Exc.Both (fun b a => P a b) y x := by
  cases x <;> cases y <;> exact h

theorem Exc.Both.imp {P' : α → β → Prop} {x : Except Err α} {y : Except Err β} (h : Exc.Both P x y)
    (hi : ∀ a b, P a b → P' a b) : Exc.Both P' x y := by
  cases x <;> cases y
  · trivial
  · exact h.elim
  · exact h.elim
  · exact hi _ _ h

theorem SameEach.some {d : Dict α} {d' : Dict β} (h : SameEach P d d') {n : String} {a : α} (ha : d.get? n = some a) :
    ∃ b, d'.get? n = Option.some b ∧ P a b := by
  have := h n
  rw [ha] at this
  cases hb : d'.get? n with
  | none => rw [hb] at this; cases this
  | some b => rw [hb] at this; cases this with | some hab => exact ⟨b, rfl, hab⟩

theorem SameEach.none {d : Dict α} {d' : Dict β} (h : SameEach P d d') {n : String} (ha : d.get? n = none) :
    d'.get? n = Option.none := by
  have := h n
  rw [ha] at this
  cases hb : d'.get? n with
  | none => rfl
  | some b => rw [hb] at this; cases this

theorem SameEach.symm {d : Dict α} {d' : Dict β} (h : SameEach P d d') : SameEach (fun b a => P a b) d' d := by
  intro n
  have := h n
  revert this
  cases d.get? n <;> cases d'.get? n <;> intro this
  · exact .none
  · cases this
  · cases this
  · cases this with | some hab => exact .some hab

theorem SameEach.mem {d : Dict α} {d' : Dict β} (h : SameEach P d d') (n : String) : n ∈ d.keys ↔ n ∈ d'.keys := by
  constructor
  · intro hn
    obtain ⟨a, ha⟩ := Dict.get?_of_mem_keys hn
    obtain ⟨b, hb, -⟩ := h.some ha
    exact Dict.mem_keys_of_get? hb
  · intro hn
    obtain ⟨a, ha⟩ := Dict.get?_of_mem_keys hn
    obtain ⟨b, hb, -⟩ := h.symm.some ha
    exact Dict.mem_keys_of_get? hb

end

/-! ## Arrays -/

theorem AlikeEntry.values {k : String} {a b : DataArray} (h : AlikeEntry k a b) : SameValues a b :=
  ⟨h.left, h.right, h.dims, h.len, h.val⟩

theorem AlikeEntry.named {k : String} {a b : DataArray} (h : AlikeEntry k a b) : SameByName a b :=
  ⟨h.dims, h.len, h.attrs, h.val⟩

theorem SameValues.symm {a b : DataArray} (h : SameValues a b) : SameValues b a where
  left := h.right
  right := h.left
  dims := h.dims.symm
  len := fun d hd => (h.len d (h.dims.mem_iff.2 hd)).symm
  val := fun ix hix => (h.val ix fun d hd => by rw [h.len d hd]; exact hix d (h.dims.mem_iff.1 hd)).symm

theorem AlikeEntry.symm {k : String} {a b : DataArray} (h : AlikeEntry k a b) : AlikeEntry k b a where
  name := h.name
  left := h.right
  right := h.left
  dims := h.dims.symm
  len := h.values.symm.len
  attrs := h.attrs.symm
  val := h.values.symm.val

theorem AgreeAt.symm {k : String} {v v' : Option Val} (h : AgreeAt k v v') : AgreeAt k v' v := by
  rcases v with _ | ⟨_ | _⟩ <;> rcases v' with _ | ⟨_ | _⟩ <;> first | exact h.elim | exact trivial | exact AlikeEntry.symm h | exact Eq.symm h

theorem Agree.symm {s s' : State} (h : Agree s s') : Agree s' s := fun n => (h n).symm

theorem Agree.named {s s' : State} (h : Agree s s') : SameNamedState s s' := by
  intro n
  have := h n
  revert this
  rcases Dict.get? s n with _ | ⟨_ | _⟩ <;> rcases Dict.get? s' n with _ | ⟨_ | _⟩ <;> intro this <;>
    first | exact this.elim | exact trivial | exact AlikeEntry.named this | exact this

theorem Agree.mem_keys {s s' : State} (h : Agree s s') (n : String) : n ∈ Dict.keys s ↔ n ∈ Dict.keys s' :=
  h.named.mem_keys n

theorem Agree.da {s s' : State} (h : Agree s s') {n : String} {a : DataArray} (ha : Dict.get? s n = some (.da a)) :
    ∃ b, Dict.get? s' n = some (.da b) ∧ AlikeEntry n a b := by
  obtain ⟨b, hb, -⟩ := h.named.da ha
  have := h n
  rw [ha, hb] at this
  exact ⟨b, hb, this⟩

theorem SameRates.symm {R : Registry} {a b : DataArray} (h : SameRates R a b) : SameRates R b a where
  left := h.right
  right := h.left
  dims := h.dims.symm
  len := fun d hd => (h.len d (h.dims.mem_iff.2 hd)).symm
  rate := by
    have hin : ∀ ix : String → Nat, (∀ d ∈ b.dims, ix d < b.len d) → ∀ d ∈ a.dims, ix d < a.len d :=
      fun ix hix d hd => by rw [h.len d hd]; exact hix d (h.dims.mem_iff.1 hd)
    rcases h.rate with ⟨h1, h2⟩ | ⟨own, own', u, u', h1, h2, h3, h4, h5, h6⟩
    · exact .inl ⟨h1.symm, fun ix hix => (h2 ix (hin ix hix)).symm⟩
    · exact .inr ⟨own', own, u', u, h2, h1, h4, h3, h5.symm, fun ix hix => (h6 ix (hin ix hix)).symm⟩

theorem Agree.proper {s s' : State} (h : Agree s s') (hk : (Dict.keys s).Nodup) : ProperState s where
  keys := hk
  wf := fun n a ha => by
    obtain ⟨b, -, hab⟩ := h.da ha
    exact hab.left.wf
  star := fun n a ha => by
    obtain ⟨b, -, hab⟩ := h.da ha
    exact hab.left.star
  time := fun a ha => by
    obtain ⟨b, -, hab⟩ := h.da ha
    exact hab.name rfl

theorem SameStates.symm {s s' : State} (h : SameStates s s') : SameStates s' s := ⟨h.right, h.left, h.same.symm⟩

theorem SameNamedDict.symm {d d' : Dict DataArray} (h : SameNamedDict d d') : SameNamedDict d' d :=
  fun n => (h n).symm

theorem SameComponents.symm {σ σ' : Type} {R : Registry} {p : Prog σ} {p' : Prog σ'} (h : SameComponents R p p') :
    SameComponents R p' p := fun s s' state state' dt hs =>
  (h s' s state' state dt hs.symm).symm.imp fun r' r hr => by
    refine ⟨fun n => ?_, hr.2.symm⟩
    have := hr.1.symm n
    revert this
    cases Dict.get? r'.1 n <;> cases Dict.get? r.1 n <;> intro this
    · exact .none
    · cases this
    · cases this
    · cases this with | some hab => exact .some hab.symm

theorem SameValues.smul {a b : DataArray} (h : SameValues a b) (c : Rat) : SameValues (a.smul c) (b.smul c) where
  left := ⟨h.left.wf, h.left.star⟩
  right := ⟨h.right.wf, h.right.star⟩
  dims := h.dims
  len := h.len
  val := fun ix hix => by
    show c * a.at' ix = c * b.at' ix
    rw [h.val ix hix]

/-- Dims and lengths of the result of a binary operation. -/
theorem binop_len {f : Rat → Rat → Rat} {a b r : DataArray} (h : DataArray.binop f a b = .ok r) :
    (∀ d ∈ b.dims, d ∈ a.dims → b.len d = a.len d) ∧ ∀ d ∈ r.dims, r.len d = if d ∈ a.dims then a.len d else b.len d := by
  unfold DataArray.binop at h
  dsimp only at h
  by_cases hc : ∀ d ∈ b.dims, d ∈ a.dims → b.len d = a.len d
  · rw [if_pos hc] at h
    cases h
    refine ⟨hc, fun d hd => ?_⟩
    exact getD_map_idxOf hd (fun d => if d ∈ a.dims then a.len d else b.len d)
  · rw [if_neg hc] at h
    cases h

theorem binop_isOk (f : Rat → Rat → Rat) {a b : DataArray} (h : ∀ d ∈ b.dims, d ∈ a.dims → b.len d = a.len d) :
    ∃ r, DataArray.binop f a b = .ok r := by
  unfold DataArray.binop
  dsimp only
  rw [if_pos h]
  exact ⟨_, rfl⟩

theorem binop_fine {f : Rat → Rat → Rat} {a b r : DataArray} (ha : a.Fine) (hb : b.Fine)
    (h : DataArray.binop f a b = .ok r) : r.Fine := by
  obtain ⟨h3, -⟩ := binop_ok h
  unfold DataArray.binop at h
  dsimp only at h
  by_cases hc : ∀ d ∈ b.dims, d ∈ a.dims → b.len d = a.len d
  · rw [if_pos hc] at h
    cases h
    refine ⟨⟨(List.length_map _).symm, ?_⟩, ?_⟩
    · rw [h3]
      refine List.Nodup.append ha.wf.2 (hb.wf.2.filter _) fun d h1 h2 => ?_
      have := (List.mem_filter.1 h2).2
      simp only [decide_not, Bool.not_eq_eq_eq_not, Bool.not_true, decide_eq_false_iff_not] at this
      exact this h1
    · rw [h3]
      intro hm
      rcases List.mem_append.1 hm with hm | hm
      · exact ha.star hm
      · exact hb.star (List.mem_filter.1 hm).1
  · rw [if_neg hc] at h
    cases h

theorem binop_sim {a a' b b' : DataArray} (f : Rat → Rat → Rat) (ha : SameValues a a') (hb : SameValues b b') :
    Sim SameValues (DataArray.binop f a b) (DataArray.binop f a' b') := by
  intro r hr
  obtain ⟨h1, h2⟩ := binop_len hr
  obtain ⟨h3, h4⟩ := binop_ok hr
  obtain ⟨r', hr'⟩ := binop_isOk f (a := a') (b := b') fun d hd hd' => by
    rw [← ha.len d (ha.dims.mem_iff.2 hd'), ← hb.len d (hb.dims.mem_iff.2 hd)]
    exact h1 d (hb.dims.mem_iff.2 hd) (ha.dims.mem_iff.2 hd')
  obtain ⟨h1', h2'⟩ := binop_len hr'
  obtain ⟨h3', h4'⟩ := binop_ok hr'
  have hdims : r.dims.Perm r'.dims := by
    rw [h3, h3']
    refine ha.dims.append ?_
    have : b'.dims.filter (fun d => d ∉ a'.dims) = b'.dims.filter (fun d => d ∉ a.dims) :=
      List.filter_congr fun d _ => by simp only [ha.dims.mem_iff]
    rw [this]
    exact hb.dims.filter _
  have hla : ∀ d ∈ a.dims, r.len d = a.len d := fun d hd => by
    rw [h2 d (by rw [h3]; exact List.mem_append_left _ hd), if_pos hd]
  have hlb : ∀ d ∈ b.dims, r.len d = b.len d := fun d hd => by
    by_cases hda : d ∈ a.dims
    · rw [hla d hda, h1 d hd hda]
    · rw [h2 d (by rw [h3]; exact List.mem_append_right _ (List.mem_filter.2 ⟨hd, by simpa using hda⟩)), if_neg hda]
  have hmema : ∀ d ∈ a.dims, d ∈ r.dims := fun d hd => by rw [h3]; exact List.mem_append_left _ hd
  have hmemb : ∀ d ∈ b.dims, d ∈ r.dims := fun d hd => by
    rw [h3]
    by_cases hda : d ∈ a.dims
    · exact List.mem_append_left _ hda
    · exact List.mem_append_right _ (List.mem_filter.2 ⟨hd, by simpa using hda⟩)
  refine ⟨r', hr', binop_fine ha.left hb.left hr, binop_fine ha.right hb.right hr', hdims, fun d hd => ?_,
    fun ix hix => ?_⟩
  · rw [h2' d (hdims.mem_iff.1 hd), h2 d hd]
    by_cases hda : d ∈ a.dims
    · rw [if_pos hda, if_pos (ha.dims.mem_iff.1 hda), ha.len d hda]
    · have hdb : d ∈ b.dims := by
        rw [h3] at hd
        rcases List.mem_append.1 hd with hd | hd
        · exact absurd hd hda
        · exact (List.mem_filter.1 hd).1
      rw [if_neg hda, if_neg (fun h => hda (ha.dims.mem_iff.2 h)), hb.len d hdb]
  · rw [h4, h4', ha.val ix fun d hd => by rw [← hla d hd]; exact hix d (hmema d hd),
      hb.val ix fun d hd => by rw [← hlb d hd]; exact hix d (hmemb d hd)]

theorem add_sim {a a' b b' : DataArray} (ha : SameValues a a') (hb : SameValues b b') :
    Sim SameValues (a.add b) (a'.add b') :=
  (binop_sim (· + ·) ha hb).bind fun _ _ h =>
    Sim.ok ⟨⟨h.left.wf, h.left.star⟩, ⟨h.right.wf, h.right.star⟩, h.dims, h.len, h.val⟩

theorem sub_sim {a a' b b' : DataArray} (ha : SameValues a a') (hb : SameValues b b') :
    Sim SameValues (a.sub b) (a'.sub b') :=
  (binop_sim (· - ·) ha hb).bind fun _ _ h =>
    Sim.ok ⟨⟨h.left.wf, h.left.star⟩, ⟨h.right.wf, h.right.star⟩, h.dims, h.len, h.val⟩

theorem add_sim_named {k : String} {a a' b b' : DataArray} (ha : AlikeEntry k a a') (hb : SameValues b b') :
    Sim (AlikeEntry k) (a.add b) (a'.add b') :=
  (binop_sim (· + ·) ha.values hb).bind fun _ _ h =>
    Sim.ok ⟨ha.name, ⟨h.left.wf, h.left.star⟩, ⟨h.right.wf, h.right.star⟩, h.dims, h.len, ha.attrs, h.val⟩

theorem iadd_sim {k : String} {a a' b b' : DataArray} (ha : AlikeEntry k a a') (hb : SameValues b b') :
    Sim (AlikeEntry k) (a.iadd b) (a'.iadd b') := by
  unfold DataArray.iadd
  by_cases h : ∀ d ∈ b.dims, d ∈ a.dims
  · rw [if_pos h, if_pos fun d hd => ha.dims.mem_iff.1 (h d (hb.dims.mem_iff.2 hd))]
    exact add_sim_named ha hb
  · rw [if_neg h]
    exact Sim.error

theorem toUnits_sim {R : Registry} (hR : R.Faithful) {v v' : DataArray} (h : SameRates R v v') (u : String) :
    Sim SameValues (v.toUnits R u) (v'.toUnits R u) := by
  intro q hq
  obtain ⟨o, h1, h2, h3, h4, a, b, ha, hb, h5⟩ := toUnits_ok hR hq
  have hlen : ∀ d, q.len d = v.len d := fun d => by unfold DataArray.len; rw [h2, h3]
  have hdim : a.dim = b.dim := by
    rcases h5 with ⟨-, h5⟩ | ⟨-, -⟩
    · unfold PintUnit.sameQty at h5
      exact of_decide_eq_true (Bool.and_eq_true_iff.1 h5).1
    · obtain ⟨b', a', hb', ha', hd, -⟩ := h4 []
      rw [ha] at ha'; cases ha'
      rw [hb] at hb'; cases hb'
      exact hd.symm
  have key : ∀ own' u', v'.attrs.get? "units" = some own' → R.parse own' = some u' → a.dim = u'.dim →
      (∀ ix : String → Nat, (∀ d ∈ v.dims, ix d < v.len d) →
        v.at' ix * a.scale + a.offset = v'.at' ix * u'.scale + u'.offset) →
      ∃ q', v'.toUnits R u = .ok q' ∧ SameValues q q' := by
    intro own' u' ho' hu' hd' hval
    obtain ⟨q', hq'⟩ := toUnits_isOk (R := R) (v := v') ho' hu' hb (hd'.symm.trans hdim)
    obtain ⟨o', h1', h2', h3', -⟩ := toUnits_ok hR hq'
    have hlen' : ∀ d, q'.len d = v'.len d := fun d => by unfold DataArray.len; rw [h2', h3']
    refine ⟨q', hq', ⟨⟨by rw [h2, h3]; exact h.left.wf.1, h2 ▸ h.left.wf.2⟩, h2 ▸ h.left.star⟩,
      ⟨⟨by rw [h2', h3']; exact h.right.wf.1, h2' ▸ h.right.wf.2⟩, h2' ▸ h.right.star⟩, ?_, ?_, ?_⟩
    · rw [h2, h2']; exact h.dims
    · intro d hd
      rw [h2] at hd
      rw [hlen, hlen', h.len d hd]
    · intro ix hix
      obtain ⟨_, a1, b1, e1, e2, e3, -, e4⟩ := toUnits_at hR hq ix
      obtain ⟨_, a2, b2, f1, f2, f3, -, f4⟩ := toUnits_at hR hq' ix
      rw [h1] at e1; cases e1
      rw [ha] at e2; cases e2
      rw [hb] at e3; cases e3
      rw [ho'] at f1; cases f1
      rw [hu'] at f2; cases f2
      rw [hb] at f3; cases f3
      have := hval ix fun d hd => by
        rw [← hlen]; exact hix d (by rw [h2]; exact hd)
      rw [← e4, ← f4] at this
      have h0 : b.scale ≠ 0 := ne_of_gt b.scale_pos
      exact mul_right_cancel₀ h0 (add_right_cancel this)
  rcases h.rate with ⟨g1, g2⟩ | ⟨own, own', w, w', g1, g2, g3, g4, g5, g6⟩
  · refine key o a (g1 ▸ h1) ha rfl fun ix hix => by rw [g2 ix hix]
  · rw [h1] at g1; cases g1
    rw [ha] at g3; cases g3
    exact key own' w' g2 g4 g5 g6

/-! ## States -/

theorem da_sim {s s' : State} (h : Agree s s') (k : String) : Sim (AlikeEntry k) (State.da s k) (State.da s' k) := by
  intro a ha
  obtain ⟨b, hb, hab⟩ := h.da (State.da_ok.1 ha)
  exact ⟨b, State.da_ok.2 hb, hab⟩

theorem get_sim {α β : Type} {P : α → β → Prop} {d : Dict α} {d' : Dict β} (h : SameEach P d d') (k : String) :
    Sim P (d.get k) (d'.get k) := by
  intro a ha
  obtain ⟨b, hb, hab⟩ := h.some (Dict.get_eq_ok.1 ha)
  exact ⟨b, Dict.get_eq_ok.2 hb, hab⟩

theorem copyUntouched_same {s s' n n' : State} (h : SameStates s s') (hn : SameStates n n') :
    SameStates (copyUntouched s n) (copyUntouched s' n') where
  left := nodup_copyUntouched _ _ hn.left
  right := nodup_copyUntouched _ _ hn.right
  same := fun k => by
    obtain ⟨-, h2, h3⟩ := copyUntouched_spec s n
    obtain ⟨-, h2', h3'⟩ := copyUntouched_spec s' n'
    by_cases hk : k ∈ Dict.keys n
    · rw [h2 k hk, h2' k ((hn.same.mem_keys k).1 hk)]
      exact hn.same k
    · rw [h3 k hk, h3' k fun h => hk ((hn.same.mem_keys k).2 h)]
      exact h.same k

theorem stepKeys_sim {f g : String → Except Err DataArray} {ks ks' : List String} (hn : ks.Nodup) (hn' : ks'.Nodup)
    (hk : ∀ k, k ∈ ks ↔ k ∈ ks') (h : ∀ k, Sim (AlikeEntry k) (f k) (g k)) :
    Sim SameStates (stepKeys f ks) (stepKeys g ks') := by
  intro new hnew
  obtain ⟨h1, h2⟩ := stepKeys_ok hnew
  obtain ⟨new', hnew'⟩ := stepKeys_isOk (f := g) (ks := ks') fun k hk' => by
    obtain ⟨v, hv, -⟩ := h2 k ((hk k).2 hk')
    obtain ⟨w, hw, -⟩ := h k v hv
    exact ⟨w, hw⟩
  obtain ⟨h1', h2'⟩ := stepKeys_ok hnew'
  refine ⟨new', hnew', h1 ▸ hn, h1' ▸ hn', fun k => ?_⟩
  by_cases hm : k ∈ ks
  · obtain ⟨v, hv, hg⟩ := h2 k hm
    obtain ⟨w, hw, hvw⟩ := h k v hv
    obtain ⟨w', hw', hg'⟩ := h2' k ((hk k).1 hm)
    rw [hw] at hw'; cases hw'
    rw [hg, hg']
    exact hvw
  · rw [(Dict.get?_eq_none_iff _ _).2 (by rw [h1]; exact hm),
      (Dict.get?_eq_none_iff _ _).2 (by rw [h1']; exact fun h => hm ((hk k).2 h))]
    trivial

/-! ## Tendencies -/

/-- Tendencies in the state's units per second. -/
structure SameTends (t t' : Dict DataArray) : Prop where
  left : t.keys.Nodup
  right : t'.keys.Nodup
  each : SameEach SameValues t t'

theorem convertTendency_sim {R : Registry} (hR : R.Faithful) {s s' : State} (h : Agree s s') {v v' : DataArray}
    (hv : SameRates R v v') (q : String) : Sim SameValues (convertTendency R s q v) (convertTendency R s' q v') := by
  unfold convertTendency
  have hu : v.attrs.get? "units" = none → v'.attrs.get? "units" = none ∧ SameValues v v' := by
    intro hn
    rcases hv.rate with ⟨h1, h2⟩ | ⟨own, own', u, u', h1, h2⟩
    · exact ⟨h1 ▸ hn, hv.left, hv.right, hv.dims, hv.len, h2⟩
    · rw [hn] at h1; cases h1
  have hs : ∀ o, v.attrs.get? "units" = some o → ∃ o', v'.attrs.get? "units" = some o' := by
    intro o ho
    rcases hv.rate with ⟨h1, -⟩ | ⟨own, own', u, u', h1, h2, -⟩
    · exact ⟨o, h1 ▸ ho⟩
    · exact ⟨own', h2⟩
  cases ho : v.attrs.get? "units" with
  | none =>
    rw [(hu ho).1]
    exact Sim.ok (hu ho).2
  | some o =>
    obtain ⟨o', ho'⟩ := hs o ho
    rw [ho']
    dsimp only
    refine (da_sim h q).bind fun a b hab => ?_
    rw [hab.attrs]
    exact (show Sim Eq (b.attrs.get "units") (b.attrs.get "units") from fun u hu => ⟨u, hu, rfl⟩).bind fun u u' e =>
      e ▸ toUnits_sim hR hv _

theorem convertTendencies_sim {R : Registry} (hR : R.Faithful) {s s' : State} (h : Agree s s')
    {t t' : Dict DataArray} (hn : t.keys.Nodup) (hn' : t'.keys.Nodup) (ht : SameEach (SameRates R) t t') :
    Sim SameTends (convertTendencies R s t) (convertTendencies R s' t') := by
  intro r hr
  obtain ⟨h1, h2⟩ := convertTendencies_ok hr
  have hone : ∀ k v', t'.get? k = some v' → ∃ v w w', t.get? k = some v ∧ r.get? k = some w ∧
      convertTendency R s' k v' = .ok w' ∧ SameValues w w' := by
    intro k v' hv'
    obtain ⟨v, hv, hvv⟩ := ht.symm.some hv'
    obtain ⟨w, hw, hcw⟩ := h2 k v hv
    obtain ⟨w', hw', hww⟩ := convertTendency_sim hR h hvv k w hcw
    exact ⟨v, w, w', hv, hw, hw', hww⟩
  obtain ⟨r', hr'⟩ := convertTendencies_isOk (R := R) (state := s') (t := t') fun k v' hm => by
    obtain ⟨-, -, w', -, -, hw', -⟩ := hone k v' (Dict.get?_of_mem hn' hm)
    exact ⟨w', hw'⟩
  obtain ⟨h1', h2'⟩ := convertTendencies_ok hr'
  refine ⟨r', hr', h1 ▸ hn, h1' ▸ hn', fun k => ?_⟩
  cases hv' : t'.get? k with
  | none =>
    rw [(Dict.get?_eq_none_iff r k).2 (by rw [h1]; exact (Dict.get?_eq_none_iff t k).1 (ht.symm.none hv')),
      (Dict.get?_eq_none_iff r' k).2 (by rw [h1']; exact (Dict.get?_eq_none_iff t' k).1 hv')]
    exact .none
  | some v' =>
    obtain ⟨v, w, w', -, hw, hcw, hww⟩ := hone k v' hv'
    obtain ⟨x, hx, hcx⟩ := h2' k v' hv'
    rw [hcw] at hcx; cases hcx
    rw [hw, hx]
    exact .some hww

/-! ## AdamsBashforth -/

section
variable {s s' : State} (h : Agree s s')
include h

theorem stepEuler_sim {t t' : Dict DataArray} (ht : SameTends t t') (dt : Int) :
    Sim SameStates (stepEuler s t dt) (stepEuler s' t' dt) :=
  stepKeys_sim ht.left ht.right ht.each.mem fun k => (da_sim h k).bind fun _ _ hx => (get_sim ht.each k).bind fun _ _ hv =>
    add_sim_named hx (hv.smul _)

theorem secondBashforth_sim {t0 t2 t1 t0' t2' t1' : Dict DataArray} (h0 : SameTends t0 t0') (h2 : SameTends t2 t2')
    (h1 : SameTends t1 t1') (dt : Int) :
    Sim SameStates (secondBashforth s t0 t2 t1 dt) (secondBashforth s' t0' t2' t1' dt) :=
  stepKeys_sim h0.left h0.right h0.each.mem fun k => (da_sim h k).bind fun _ _ hx =>
    (get_sim h1.each k).bind fun _ _ v1 => (get_sim h2.each k).bind fun _ _ v2 =>
    (sub_sim (v1.smul _) (v2.smul _)).bind fun _ _ hd => add_sim_named hx (hd.smul _)

theorem thirdBashforth_sim {t0 t3 t2 t1 t0' t3' t2' t1' : Dict DataArray} (h0 : SameTends t0 t0') (h3 : SameTends t3 t3')
    (h2 : SameTends t2 t2') (h1 : SameTends t1 t1') (dt : Int) :
    Sim SameStates (thirdBashforth s t0 t3 t2 t1 dt) (thirdBashforth s' t0' t3' t2' t1' dt) :=
  stepKeys_sim h0.left h0.right h0.each.mem fun k => (da_sim h k).bind fun _ _ hx =>
    (get_sim h1.each k).bind fun _ _ v1 => (get_sim h2.each k).bind fun _ _ v2 =>
    (sub_sim (v1.smul _) (v2.smul _)).bind fun _ _ hd => (get_sim h3.each k).bind fun _ _ v3 =>
    (add_sim hd (v3.smul _)).bind fun _ _ hd => add_sim_named hx (hd.smul _)

theorem fourthBashforth_sim {t0 t4 t3 t2 t1 t0' t4' t3' t2' t1' : Dict DataArray} (h0 : SameTends t0 t0')
    (h4 : SameTends t4 t4') (h3 : SameTends t3 t3') (h2 : SameTends t2 t2') (h1 : SameTends t1 t1') (dt : Int) :
    Sim SameStates (fourthBashforth s t0 t4 t3 t2 t1 dt) (fourthBashforth s' t0' t4' t3' t2' t1' dt) :=
  stepKeys_sim h0.left h0.right h0.each.mem fun k => (da_sim h k).bind fun _ _ hx =>
    (get_sim h1.each k).bind fun _ _ v1 => (get_sim h2.each k).bind fun _ _ v2 =>
    (sub_sim (v1.smul _) (v2.smul _)).bind fun _ _ hd => (get_sim h3.each k).bind fun _ _ v3 =>
    (add_sim hd (v3.smul _)).bind fun _ _ hd => (get_sim h4.each k).bind fun _ _ v4 =>
    (sub_sim hd (v4.smul _)).bind fun _ _ hd => add_sim_named hx (hd.smul _)

theorem performStep_sim {hist hist' : List (Dict DataArray)} (hh : List.Forall₂ SameTends hist hist') (order : Nat)
    (dt : Int) : Sim SameStates (performStep order hist s dt) (performStep order hist' s' dt) := by
  have hr : List.Forall₂ SameTends hist.reverse hist'.reverse := List.rel_reverse hh
  unfold performStep
  rw [← hh.length_eq]
  generalize hist.length = len
  revert hr
  generalize hist.reverse = rev
  generalize hist'.reverse = rev'
  intro hr
  cases hh with
  | nil => exact Sim.error
  | cons h0 _ =>
    cases hr with
    | nil => exact Sim.error
    | cons h1 hp =>
      dsimp only
      generalize min order len = m
      match m with
      | 0 => exact Sim.error
      | 1 => exact stepEuler_sim h h1 dt
      | 2 =>
        cases hp with
        | nil => exact Sim.error
        | cons h2 _ => exact secondBashforth_sim h h0 h2 h1 dt
      | 3 =>
        cases hp with
        | nil => exact Sim.error
        | cons h2 hp =>
          cases hp with
          | nil => exact Sim.error
          | cons h3 _ => exact thirdBashforth_sim h h0 h3 h2 h1 dt
      | 4 =>
        cases hp with
        | nil => exact Sim.error
        | cons h2 hp =>
          cases hp with
          | nil => exact Sim.error
          | cons h3 hp =>
            cases hp with
            | nil => exact Sim.error
            | cons h4 _ => exact fourthBashforth_sim h h0 h4 h3 h2 h1 dt
      | n + 5 => exact Sim.error

end

section
variable {R : Registry} {σ σ' : Type} {p : Prog σ} {p' : Prog σ'}

/-- Memories of an AdamsBashforth that agree by name. -/
structure AlikeAB (ab ab' : AB) : Prop where
  same : ab.order = ab'.order
  timestep : ab.timestep = ab'.timestep
  hist : List.Forall₂ SameTends ab.hist ab'.hist

/-- If the first call succeeds, so does the second, with results that agree by name. -/
def CallSim {τ τ' σ σ' : Type} (M : τ → τ' → Prop) (r : τ × σ × State × Except Err (Dict DataArray × State))
    (r' : τ' × σ' × State × Except Err (Dict DataArray × State)) : Prop :=
  ∀ o, r.2.2.2 = .ok o → ∃ o', r'.2.2.2 = .ok o' ∧ M r.1 r'.1 ∧ SameStates r.2.2.1 r'.2.2.1 ∧
    SameNamedDict o.1 o'.1 ∧ SameStates o.2 o'.2

theorem prog_sim (hR : R.Faithful) (hp : SameComponents R p p') (hd : p.Dicts) (hd' : p'.Dicts) (w : σ) (w' : σ')
    {s s' : State} (h : SameStates s s') (dt : Int) {r : TendOut} (hr : (p w s dt).2 = .ok r) {t : Dict DataArray}
    (ht : convertTendencies R s r.1 = .ok t) :
    ∃ r' t', (p' w' s' dt).2 = .ok r' ∧ convertTendencies R s' r'.1 = .ok t' ∧ SameNamedDict r.2 r'.2 ∧
      SameTends t t' := by
  obtain ⟨r', hr', h1, h2⟩ := (hp w w' s s' dt h).sim r hr
  obtain ⟨t', ht', h3⟩ := convertTendencies_sim hR h.same (hd _ _ _ _ hr) (hd' _ _ _ _ hr') h1 t ht
  exact ⟨r', t', hr', ht', h2, h3⟩

theorem ab_sim (hR : R.Faithful) (hp : SameComponents R p p') (hd : p.Dicts) (hd' : p'.Dicts) {ab ab' : AB}
    (hab : AlikeAB ab ab') (w : σ) (w' : σ') {s s' : State} (h : SameStates s s') (dt : Int) :
    CallSim AlikeAB (abCall R p ab w s dt) (abCall R p' ab' w' s' dt) := by
  intro o ho
  change (AB.call R p ab w s dt).2.2 = .ok o at ho
  cases ab_outcome R p ab w s dt with
  | rejected hts hc ht => rw [hc] at ho; cases ho
  | early e hts hc ht => rw [hc] at ho; cases ho
  | late t e hts ht hps hc => rw [hc] at ho; cases ho
  | done t r n hts hr hconv ht hps hc =>
    rw [hc] at ho
    cases ho
    obtain ⟨r', t', hr', hconv', hdiag, htt⟩ := prog_sim hR hp hd hd' w w' h dt hr hconv
    have hh : List.Forall₂ SameTends (ab.hist ++ [t]) (ab'.hist ++ [t']) :=
      List.rel_append hab.hist (.cons htt .nil)
    obtain ⟨n', hn', hnn⟩ := performStep_sim h.same hh ab.order dt n hps
    have hc' : AB.call R p' ab' w' s' dt =
        (if (ab'.hist ++ [t']).length = ab'.order then
            { ab' with timestep := some dt, hist := (ab'.hist ++ [t']).tail }
          else { ab' with timestep := some dt, hist := ab'.hist ++ [t'] },
          (p' w' s' dt).1, .ok (r'.2, copyUntouched s' n')) := by
      unfold AB.call
      rw [if_pos (hab.timestep ▸ hts)]
      rw [hab.same] at hn'
      simp only [hr', hconv', hn']
    refine ⟨(r'.2, copyUntouched s' n'), ?_, ?_, h, hdiag, copyUntouched_same h hnn⟩
    · show (AB.call R p' ab' w' s' dt).2.2 = _
      rw [hc']
    · show AlikeAB (AB.call R p ab w s dt).1 (AB.call R p' ab' w' s' dt).1
      rw [hc, hc', ← hh.length_eq, ← hab.same]
      dsimp only
      by_cases hl : (ab.hist ++ [t]).length = ab.order
      · rw [if_pos hl, if_pos hl]
        refine ⟨rfl, rfl, ?_⟩
        show List.Forall₂ SameTends (ab.hist ++ [t]).tail (ab'.hist ++ [t']).tail
        revert hh
        generalize ab.hist ++ [t] = l
        generalize ab'.hist ++ [t'] = l'
        intro hh
        cases hh with
        | nil => exact .nil
        | cons _ h => exact h
      · rw [if_neg hl, if_neg hl]
        exact ⟨rfl, rfl, hh⟩

/-! ## SSPRungeKutta -/

theorem scaleStateLoop_each {c : Rat} : ∀ {l out o : State}, scaleStateLoop c l out = .ok o →
    ∀ k v, k ≠ "time" → (k, v) ∈ l → ∃ a, v = Val.da a := by
  intro l
  induction l with
  | nil => intro out o _ k v _ hm; cases hm
  | cons kv l ih =>
    obtain ⟨k0, v0⟩ := kv
    intro out o ho k v hk hm
    unfold scaleStateLoop at ho
    by_cases h0 : k0 = "time"
    · rw [if_pos h0] at ho
      rcases List.mem_cons.1 hm with e | hm
      · cases e; exact absurd h0 hk
      · exact ih ho k v hk hm
    · rw [if_neg h0] at ho
      cases v0 with
      | time t => cases ho
      | da a =>
        rcases List.mem_cons.1 hm with e | hm
        · cases e; exact ⟨a, rfl⟩
        · exact ih ho k v hk hm

theorem addStatesLoop_each {s2 : State} : ∀ {l out o : State}, addStatesLoop s2 l out = .ok o →
    ∀ k v, k ≠ "time" → (k, v) ∈ l → ∃ a a' r, v = Val.da a ∧ Dict.get? s2 k = some (.da a') ∧ a.add a' = .ok r := by
  intro l
  induction l with
  | nil => intro out o _ k v _ hm; cases hm
  | cons kv l ih =>
    obtain ⟨k0, v0⟩ := kv
    intro out o ho k v hk hm
    unfold addStatesLoop at ho
    by_cases h0 : k0 = "time"
    · rw [if_pos h0] at ho
      rcases List.mem_cons.1 hm with e | hm
      · cases e; exact absurd h0 hk
      · exact ih ho k v hk hm
    · rw [if_neg h0] at ho
      cases v0 with
      | time t => cases ho
      | da a =>
        dsimp only at ho
        obtain ⟨b, hb, ho⟩ := Exc.bind_ok_iff.1 ho
        obtain ⟨r, hr, ho⟩ := Exc.bind_ok_iff.1 ho
        rcases List.mem_cons.1 hm with e | hm
        · cases e
          exact ⟨a, b, r, rfl, State.da_ok.1 hb, hr⟩
        · exact ih ho k v hk hm

theorem scaleState_sim {s s' : State} (h : SameStates s s') (c : Rat) :
    Sim SameStates (scaleState c s) (scaleState c s') := by
  intro o ho
  have he := scaleStateLoop_each ho
  obtain ⟨o1, e0, e1, e2, e3⟩ := scaleStateLoop_isOk (c' := c) h.left (timeEntry_nodup s) he
  unfold scaleState at ho
  rw [e0] at ho; cases ho
  obtain ⟨o', f0, f1, f2, f3⟩ := scaleStateLoop_isOk (c' := c) h.right (timeEntry_nodup s') fun k v hk hm => by
    have hg := Dict.get?_of_mem h.right hm
    cases v with
    | da a => exact ⟨a, rfl⟩
    | time t =>
      have := h.same k
      rw [hg] at this
      cases hs : Dict.get? s k with
      | none => rw [hs] at this; exact this.elim
      | some v =>
        obtain ⟨a, rfl⟩ := he k v hk (Dict.mem_of_get? hs)
        rw [hs] at this
        exact this.elim
  refine ⟨o', f0, e1, f1, fun k => ?_⟩
  by_cases hk : k = "time"
  · rw [e2 k (.inl hk), f2 k (.inl hk), hk, timeEntry_get, timeEntry_get]
    exact h.same _
  · by_cases hm : k ∈ Dict.keys s
    · obtain ⟨v, hv⟩ := Dict.get?_of_mem_keys hm
      obtain ⟨a, rfl⟩ := he k v hk (Dict.mem_of_get? hv)
      obtain ⟨b, hb, hab⟩ := h.same.da hv
      rw [e3 k a hk (Dict.mem_of_get? hv), f3 k b hk (Dict.mem_of_get? hb)]
      exact ⟨hk, ⟨hab.left.wf, hab.left.star⟩, ⟨hab.right.wf, hab.right.star⟩, hab.dims, hab.len, hab.attrs, (hab.values.smul c).val⟩
    · rw [e2 k (.inr hm), f2 k (.inr fun hm' => hm ((h.same.mem_keys k).2 hm')), timeEntry_ne _ hk, timeEntry_ne _ hk]
      trivial

theorem addStates_sim {s s' u u' : State} (h : SameStates s s') (hu : SameStates u u') :
    Sim SameStates (addStates s u) (addStates s' u') := by
  intro o ho
  have he := addStatesLoop_each ho
  obtain ⟨o1, e0, e1, e2, e3⟩ := addStatesLoop_isOk h.left (timeEntry_nodup s) he
  unfold addStates at ho
  rw [e0] at ho; cases ho
  have hone : ∀ k b, k ≠ "time" → Dict.get? s' k = some (.da b) → ∃ a a' b' r r', Dict.get? s k = some (.da a) ∧
      Dict.get? u k = some (.da a') ∧ Dict.get? u' k = some (.da b') ∧ a.add a' = .ok r ∧ b.add b' = .ok r' ∧
      AlikeEntry k r r' ∧ AlikeEntry k a b := by
    intro k b hk hb
    obtain ⟨a, ha, hab⟩ := h.same.symm.da hb
    obtain ⟨x, a', r, e, ha', hr⟩ := he k _ hk (Dict.mem_of_get? ha)
    cases e
    obtain ⟨b', hb', hab'⟩ := hu.same.da ha'
    obtain ⟨r', hr', hrr⟩ := add_sim_named hab.symm hab'.values r hr
    exact ⟨a, a', b', r, r', ha, ha', hb', hr, hr', hrr, hab.symm⟩
  have hda : ∀ k v, k ≠ "time" → Dict.get? s' k = some v → ∃ b, v = .da b := by
    intro k v hk hg
    cases v with
    | da a => exact ⟨a, rfl⟩
    | time t =>
      have := h.same k
      rw [hg] at this
      cases hs : Dict.get? s k with
      | none => rw [hs] at this; exact this.elim
      | some v =>
        obtain ⟨a, _, _, rfl, -⟩ := he k v hk (Dict.mem_of_get? hs)
        rw [hs] at this
        exact this.elim
  obtain ⟨o', f0, f1, f2, f3⟩ := addStatesLoop_isOk (s2 := u') h.right (timeEntry_nodup s') fun k v hk hm => by
    have hg := Dict.get?_of_mem h.right hm
    obtain ⟨b, rfl⟩ := hda k v hk hg
    obtain ⟨a, a', b', r, r', -, -, h3, -, h5, -⟩ := hone k b hk hg
    exact ⟨b, b', r', rfl, h3, h5⟩
  refine ⟨o', f0, e1, f1, fun k => ?_⟩
  by_cases hk : k = "time"
  · rw [e2 k (.inl hk), f2 k (.inl hk), hk, timeEntry_get, timeEntry_get]
    exact h.same _
  · by_cases hm : k ∈ Dict.keys s'
    · obtain ⟨v, hv⟩ := Dict.get?_of_mem_keys hm
      obtain ⟨b, rfl⟩ := hda k v hk hv
      obtain ⟨a, a', b', r, r', h1, h2, h3, h4, h5, h6, h7⟩ := hone k b hk hv
      rw [e3 k a a' r hk (Dict.mem_of_get? h1) h2 h4, f3 k b b' r' hk (Dict.mem_of_get? hv) h3 h5]
      exact ⟨hk, ⟨h6.left.wf, h6.left.star⟩, ⟨h6.right.wf, h6.right.star⟩, h6.dims, h6.len, h7.attrs, h6.val⟩
    · rw [e2 k (.inr fun hm' => hm ((h.same.mem_keys k).1 hm')), f2 k (.inr hm), timeEntry_ne _ hk, timeEntry_ne _ hk]
      trivial

/-- A call of the Euler stepper inside SSPRungeKutta. -/
theorem euler_sim (hR : R.Faithful) (hp : SameComponents R p p') (hd : p.Dicts) (hd' : p'.Dicts) {ab ab' : AB}
    (hab : AlikeAB ab ab') (w : σ) (w' : σ') {s s' : State} (h : SameStates s s') (dt : Int) {ab1 : AB} {w1 : σ}
    {o : Dict DataArray × State} (ho : eulerCall R p ab w s dt = (ab1, w1, .ok o)) :
    ∃ ab1' w1' o', eulerCall R p' ab' w' s' dt = (ab1', w1', .ok o') ∧ AlikeAB ab1 ab1' ∧ SameNamedDict o.1 o'.1 ∧
      SameStates o.2 o'.2 := by
  unfold eulerCall at ho ⊢
  simp only [Prod.mk.injEq] at ho
  obtain ⟨rfl, rfl, ho⟩ := ho
  obtain ⟨q, hq, ho⟩ := Exc.bind_ok_iff.1 ho
  cases ho
  obtain ⟨q', hq', h1, h2, h3, h4⟩ := ab_sim hR hp hd hd' hab w w' h dt q hq
  change (AB.call R p' ab' w' s' dt).2.2 = .ok q' at hq'
  refine ⟨(AB.call R p' ab' w' s' dt).1, (AB.call R p' ab' w' s' dt).2.1, (q'.1, copyUntouched s' q'.2), ?_, h1, h3,
    copyUntouched_same h h4⟩
  dsimp only
  rw [hq', Exc.ok_bind]

theorem ssprk_sim (hR : R.Faithful) (hp : SameComponents R p p') (hd : p.Dicts) (hd' : p'.Dicts) (three : Bool)
    {ab ab' : AB} (hab : AlikeAB ab ab') (w : σ) (w' : σ') {s s' : State} (h : SameStates s s') (dt : Int) :
    CallSim AlikeAB (sspCall R p three ab w s dt) (sspCall R p' three ab' w' s' dt) := by
  suffices hs : ∀ ab1 w1 o, ssprkCall R p three ab w s dt = (ab1, w1, .ok o) → ∃ ab1' w1' o',
      ssprkCall R p' three ab' w' s' dt = (ab1', w1', .ok o') ∧ AlikeAB ab1 ab1' ∧ SameNamedDict o.1 o'.1 ∧
      SameStates o.2 o'.2 by
    intro o ho
    obtain ⟨ab1', w1', o', h1, h2, h3, h4⟩ := hs _ _ o (Prod.ext rfl (Prod.ext rfl ho))
    refine ⟨o', ?_, ?_, h, h3, h4⟩
    · show (ssprkCall R p' three ab' w' s' dt).2.2 = _
      rw [h1]
    · show AlikeAB (ssprkCall R p three ab w s dt).1 (ssprkCall R p' three ab' w' s' dt).1
      rw [h1]; exact h2
  intro ab1 w1 o ho
  unfold ssprkCall at ho ⊢
  cases three with
  | false =>
    simp only [Bool.false_eq_true, if_false] at ho ⊢
    unfold ssprk2 at ho ⊢
    split at ho
    · cases ho
    · rename_i a1 v1 diag1 st1 he1
      obtain ⟨a1', v1', ⟨diag1', st1'⟩, f1, g1, d1, s1⟩ := euler_sim hR hp hd hd' hab w w' h dt he1
      rw [f1]
      dsimp only at s1 d1 ⊢
      split at ho
      · cases ho
      · rename_i a2 v2 diag2 st2 he2
        obtain ⟨a2', v2', ⟨diag2', st2'⟩, f2, g2, -, s2⟩ := euler_sim hR hp hd hd' g1 v1 v1' s1 dt he2
        rw [f2]
        simp only [Prod.mk.injEq] at ho
        obtain ⟨rfl, rfl, ho⟩ := ho
        obtain ⟨o', ho', hoo⟩ := (addStates_sim h s2).bind
          (fun x y hxy => (scaleState_sim hxy (1 / 2)).bind (Q := fun o o' => SameNamedDict o.1 o'.1 ∧ SameStates o.2 o'.2)
            fun out out' hout => Sim.ok (a := (diag1, out)) (b := (diag1', out')) ⟨d1, hout⟩) o ho
        exact ⟨a2', v2', o', by dsimp only; rw [ho'], g2, hoo⟩
  | true =>
    simp only [if_true] at ho ⊢
    unfold ssprk3 at ho ⊢
    split at ho
    · cases ho
    · rename_i a1 v1 diag1 st1 he1
      obtain ⟨a1', v1', ⟨diag1', st1'⟩, f1, g1, d1, s1⟩ := euler_sim hR hp hd hd' hab w w' h dt he1
      rw [f1]
      dsimp only at s1 d1 ⊢
      split at ho
      · cases ho
      · rename_i a2 v2 diag2 st2 he2
        obtain ⟨a2', v2', ⟨diag2', st2'⟩, f2, g2, -, s2⟩ := euler_sim hR hp hd hd' g1 v1 v1' s1 dt he2
        rw [f2]
        dsimp only at s2 ⊢
        split at ho
        · cases ho
        · rename_i st3 he3
          obtain ⟨st3', he3', s3⟩ := (scaleState_sim h (3 / 4)).bind
            (fun x x' hx => (scaleState_sim s2 (1 / 4)).bind fun y y' hy => addStates_sim hx hy) st3 he3
          rw [he3']
          dsimp only
          split at ho
          · cases ho
          · rename_i a4 v4 diag4 st4 he4
            obtain ⟨a4', v4', ⟨diag4', st4'⟩, f4, g4, -, s4⟩ := euler_sim hR hp hd hd' g2 v2 v2' s3 dt he4
            rw [f4]
            simp only [Prod.mk.injEq] at ho
            obtain ⟨rfl, rfl, ho⟩ := ho
            obtain ⟨o', ho', hoo⟩ := (scaleState_sim h (1 / 3)).bind
              (fun x x' hx => (scaleState_sim s4 (2 / 3)).bind fun y y' hy => (addStates_sim hx hy).bind
                (Q := fun o o' => SameNamedDict o.1 o'.1 ∧ SameStates o.2 o'.2)
                fun out out' hout => Sim.ok (a := (diag1, out)) (b := (diag1', out')) ⟨d1, hout⟩) o ho
            exact ⟨a4', v4', o', by dsimp only; rw [ho'], g4, hoo⟩

/-! ## Leapfrog -/

theorem leapfrogEntry_sim {k : String} {o o' x x' v v' : DataArray} (ho : AlikeEntry k o o') (hx : AlikeEntry k x x')
    (hv : SameValues v v') (strength alpha : Rat) (dt : Int) :
    Sim (fun r r' => AlikeEntry k r.1 r'.1 ∧ Sim (AlikeEntry k) r.2 r'.2) (leapfrogEntry strength alpha o x v dt)
      (leapfrogEntry strength alpha o' x' v' dt) := by
  unfold leapfrogEntry
  refine (add_sim_named ho ((hv.smul 2).smul _)).bind fun n n' hn => ?_
  refine (sub_sim ho.values (hx.values.smul 2)).bind fun d d' hd => ?_
  refine (add_sim hd hn.values).bind fun e e' he => ?_
  dsimp only
  refine (iadd_sim hx ((he.smul _).smul _)).bind fun y y' hy => Sim.ok ⟨hy, ?_⟩
  by_cases ha : alpha ≠ 1
  · rw [if_pos ha, if_pos ha]
    exact iadd_sim hn ((he.smul _).smul _)
  · rw [if_neg ha, if_neg ha]
    exact Sim.ok hn

/-- What one pass over the names does. -/
theorem stepLeapfrog_each {ν α : Rat} {old : State} {t : Dict DataArray} {dt : Int} :
    ∀ {ks : List String} {st new st' new' : State}, ks.Nodup → (Dict.keys st).Nodup → (Dict.keys new).Nodup →
      stepLeapfrog ν α old t dt ks st new = (st', .ok new') →
      (Dict.keys st').Nodup ∧ (Dict.keys new').Nodup ∧
      (∀ k, k ∉ ks → Dict.get? st' k = Dict.get? st k ∧ Dict.get? new' k = Dict.get? new k) ∧
      ∀ k ∈ ks, ∃ o x v y n, State.da old k = .ok o ∧ State.da st k = .ok x ∧ t.get k = .ok v ∧
        leapfrogEntry ν α o x v dt = .ok (y, .ok n) ∧ Dict.get? st' k = some (.da y) ∧ Dict.get? new' k = some (.da n) := by
  intro ks
  induction ks with
  | nil =>
    intro st new st' new' _ h1 h2 h
    unfold stepLeapfrog at h
    cases h
    exact ⟨h1, h2, fun _ _ => ⟨rfl, rfl⟩, fun k hk => by cases hk⟩
  | cons k ks ih =>
    intro st new st' new' hn h1 h2 h
    obtain ⟨hk, hn⟩ := List.nodup_cons.1 hn
    unfold stepLeapfrog at h
    split at h
    · cases h
    · rename_i r hr
      obtain ⟨o, ho, hr⟩ := Exc.bind_ok_iff.1 hr
      obtain ⟨x, hx, hr⟩ := Exc.bind_ok_iff.1 hr
      obtain ⟨v, hv, hentry⟩ := Exc.bind_ok_iff.1 hr
      split at h
      · cases h
      · rename_i n hrn
        obtain ⟨i1, i2, i3, i4⟩ := ih hn (Dict.nodup_keys_set h1 _ _) (Dict.nodup_keys_set h2 _ _) h
        refine ⟨i1, i2, fun k' hk' => ?_, fun k' hk' => ?_⟩
        · obtain ⟨e1, e2⟩ := i3 k' fun hm => hk' (List.mem_cons_of_mem _ hm)
          have hne : k ≠ k' := fun e => hk' (e ▸ List.mem_cons_self)
          rw [e1, e2, Dict.get?_set_ne _ _ hne, Dict.get?_set_ne _ _ hne]
          exact ⟨rfl, rfl⟩
        · rcases List.mem_cons.1 hk' with rfl | hm
          · obtain ⟨e1, e2⟩ := i3 k' hk
            refine ⟨o, x, v, r.1, n, ho, hx, hv, ?_, ?_, ?_⟩
            · rw [hentry, ← hrn]
            · rw [e1, Dict.get?_set_self]
            · rw [e2, Dict.get?_set_self]
          · obtain ⟨o', x', v', y', n', e1, e2, e3⟩ := i4 k' hm
            have hne : k ≠ k' := fun e => hk (e ▸ hm)
            refine ⟨o', x', v', y', n', e1, ?_, e3⟩
            rw [← e2]
            unfold State.da
            rw [Dict.get?_set_ne _ _ hne]

theorem stepLeapfrog_isOk {ν α : Rat} {old : State} {t : Dict DataArray} {dt : Int} :
    ∀ {ks : List String} {st new : State}, ks.Nodup →
      (∀ k ∈ ks, ∃ o x v y n, State.da old k = .ok o ∧ State.da st k = .ok x ∧ t.get k = .ok v ∧
        leapfrogEntry ν α o x v dt = .ok (y, .ok n)) →
      ∃ st' new', stepLeapfrog ν α old t dt ks st new = (st', .ok new') := by
  intro ks
  induction ks with
  | nil => intro st new _ _; exact ⟨st, new, rfl⟩
  | cons k ks ih =>
    intro st new hn h
    obtain ⟨hk, hn⟩ := List.nodup_cons.1 hn
    obtain ⟨o, x, v, y, n, ho, hx, hv, he⟩ := h k List.mem_cons_self
    unfold stepLeapfrog
    rw [ho, Exc.ok_bind, hx, Exc.ok_bind, hv, Exc.ok_bind, he]
    dsimp only
    refine ih hn fun k' hm => ?_
    obtain ⟨o', x', v', y', n', e1, e2, e3⟩ := h k' (List.mem_cons_of_mem _ hm)
    have hne : k ≠ k' := fun e => hk (e ▸ hm)
    refine ⟨o', x', v', y', n', e1, ?_, e3⟩
    rw [← e2]
    unfold State.da
    rw [Dict.get?_set_ne _ _ hne]

theorem stepLeapfrog_sim {old old' : State} (hold : Agree old old') {t t' : Dict DataArray} (ht : SameTends t t')
    (ν α : Rat) (dt : Int) {s s' : State} (h : SameStates s s') {st new : State}
    (hs : stepLeapfrog ν α old t dt t.keys s [] = (st, .ok new)) :
    ∃ st' new', stepLeapfrog ν α old' t' dt t'.keys s' [] = (st', .ok new') ∧ SameStates st st' ∧ SameStates new new' := by
  have hnil : (Dict.keys ([] : State)).Nodup := List.nodup_nil
  obtain ⟨a1, a2, a3, a4⟩ := stepLeapfrog_each ht.left h.left hnil hs
  have hone : ∀ k ∈ t.keys, ∃ y n o' x' v' y' n', Dict.get? st k = some (.da y) ∧ Dict.get? new k = some (.da n) ∧
      State.da old' k = .ok o' ∧ State.da s' k = .ok x' ∧ t'.get k = .ok v' ∧
      leapfrogEntry ν α o' x' v' dt = .ok (y', .ok n') ∧ AlikeEntry k y y' ∧ AlikeEntry k n n' := by
    intro k hk
    obtain ⟨o, x, v, y, n, ho, hx, hv, he, hy, hn⟩ := a4 k hk
    obtain ⟨o', ho', hoo⟩ := da_sim hold k o ho
    obtain ⟨x', hx', hxx⟩ := da_sim h.same k x hx
    obtain ⟨v', hv', hvv⟩ := get_sim ht.each k v hv
    obtain ⟨⟨y', n0⟩, he', hyy, hnn⟩ := leapfrogEntry_sim hoo hxx hvv ν α dt _ he
    obtain ⟨n', hn', hnn'⟩ := hnn n rfl
    dsimp only at hn'
    subst hn'
    exact ⟨y, n, o', x', v', y', n', hy, hn, ho', hx', hv', he', hyy, hnn'⟩
  obtain ⟨st', new', hs'⟩ := stepLeapfrog_isOk (ν := ν) (α := α) (old := old') (t := t') (dt := dt) (st := s') (new := [])
    ht.right fun k hk => by
      obtain ⟨y, n, o', x', v', y', n', -, -, e1, e2, e3, e4, -⟩ := hone k ((ht.each.mem k).2 hk)
      exact ⟨o', x', v', y', n', e1, e2, e3, e4⟩
  obtain ⟨b1, b2, b3, b4⟩ := stepLeapfrog_each ht.right h.right hnil hs'
  refine ⟨st', new', hs', ⟨a1, b1, fun k => ?_⟩, ⟨a2, b2, fun k => ?_⟩⟩
  all_goals
    by_cases hk : k ∈ t.keys
    · obtain ⟨y, n, o', x', v', y', n', hy, hn, e1, e2, e3, e4, hyy, hnn⟩ := hone k hk
      obtain ⟨o2, x2, v2, y2, n2, f1, f2, f3, f4, f5, f6⟩ := b4 k ((ht.each.mem k).1 hk)
      rw [e1] at f1; cases f1
      rw [e2] at f2; cases f2
      rw [e3] at f3; cases f3
      rw [e4] at f4; cases f4
      first
      | (rw [hy, f5]; exact hyy)
      | (rw [hn, f6]; exact hnn)
    · have hk' : k ∉ t'.keys := fun hm => hk ((ht.each.mem k).2 hm)
      first
      | (rw [(a3 k hk).1, (b3 k hk').1]; exact h.same k)
      | (rw [(a3 k hk).2, (b3 k hk').2]; trivial)

/-- Memories of a Leapfrog that agree by name. -/
structure AlikeLF (lf lf' : LF) : Prop where
  strength : lf.strength = lf'.strength
  alpha : lf.alpha = lf'.alpha
  timestep : lf.timestep = lf'.timestep
  old : Option.Rel Agree lf.old lf'.old

theorem lf_sim (hR : R.Faithful) (hp : SameComponents R p p') (hd : p.Dicts) (hd' : p'.Dicts) {lf lf' : LF}
    (hlf : AlikeLF lf lf') (w : σ) (w' : σ') {s s' : State} (h : SameStates s s') (dt : Int) :
    CallSim AlikeLF (LF.call R p lf w s dt) (LF.call R p' lf' w' s' dt) := by
  rcases hcall : LF.call R p lf w s dt with ⟨lf1, w1, st1, res⟩
  rintro ⟨diag, new⟩ ho
  dsimp only at ho ⊢
  subst ho
  obtain ⟨hts, hl1, r, t, hr, hdiag, hconv, -, -, hcase⟩ := lf_ok hcall
  obtain ⟨r', t', hr', hconv', hdd, htt⟩ := prog_sim hR hp hd hd' w w' h dt hr hconv
  have hts' := hlf.timestep ▸ hts
  rcases hcase with ⟨hold, hst, n, hn, hnew⟩ | ⟨old, n, hold, hnew, hn⟩
  · have hold' : lf'.old = none := by
      have := hlf.old
      rw [hold] at this
      cases ho' : lf'.old with
      | none => rfl
      | some old' => rw [ho'] at this; cases this
    obtain ⟨n', hn', hnn⟩ := stepEuler_sim h.same htt dt n hn
    have hc' : LF.call R p' lf' w' s' dt = ({ lf' with timestep := some dt, old := some s' }, (p' w' s' dt).1, s',
        .ok (r'.2, copyUntouched s' n')) := by
      unfold LF.call
      rw [if_pos hts']
      simp only [hr', hconv', hold', hn']
    refine ⟨(r'.2, copyUntouched s' n'), by rw [hc'], ?_, ?_, ?_, ?_⟩
    · rw [hc', hl1, hst]
      exact ⟨hlf.strength, hlf.alpha, rfl, .some h.same⟩
    · rw [hc', hst]; exact h
    · rw [hdiag]; exact hdd
    · rw [hnew]; exact copyUntouched_same h hnn
  · obtain ⟨old', hold', hoo⟩ : ∃ old', lf'.old = some old' ∧ Agree old old' := by
      have := hlf.old
      rw [hold] at this
      cases ho' : lf'.old with
      | none => rw [ho'] at this; cases this
      | some old' => rw [ho'] at this; cases this with | some hab => exact ⟨old', rfl, hab⟩
    obtain ⟨st', n', hn', hss, hnn⟩ := stepLeapfrog_sim hoo htt lf.strength lf.alpha dt h hn
    rw [hlf.strength, hlf.alpha] at hn'
    have hc' : LF.call R p' lf' w' s' dt = ({ lf' with timestep := some dt, old := some st' }, (p' w' s' dt).1, st',
        .ok (r'.2, copyUntouched st' n')) := by
      unfold LF.call
      rw [if_pos hts']
      simp only [hr', hconv', hold', hn']
    refine ⟨(r'.2, copyUntouched st' n'), by rw [hc'], ?_, ?_, ?_, ?_⟩
    · rw [hc', hl1]
      exact ⟨hlf.strength, hlf.alpha, rfl, .some hss.same⟩
    · rw [hc']; exact hss
    · rw [hdiag]; exact hdd
    · rw [hnew]; exact copyUntouched_same hss hnn

/-! ## Runs -/

theorem tsCall_sim {τ τ' : Type} {M : τ → τ' → Prop} {inP outP inP' outP' : PropDict} {inst inst' : String}
    {call : τ → σ → State → Int → τ × σ × State × Except Err (Dict DataArray × State)}
    {call' : τ' → σ' → State → Int → τ' × σ' × State × Except Err (Dict DataArray × State)} {x : τ} {x' : τ'} {w : σ}
    {w' : σ'} {s s' : State} {dt : Int} (h : CallSim M (call x w s dt) (call' x' w' s' dt)) :
    CallSim M (tsCall R inP outP inst false call x w s dt) (tsCall R inP' outP' inst' false call' x' w' s' dt) := by
  intro o ho
  unfold tsCall at ho
  simp only [Bool.false_eq_true, if_false] at ho
  obtain ⟨q, hq, ho⟩ := Exc.bind_ok_iff.1 ho
  cases ho
  obtain ⟨q', hq', h1, h2, h3, h4⟩ := h q hq
  refine ⟨(q'.1, copyUntouched (call' x' w' s' dt).2.2.1 q'.2), ?_, h1, h2, h3, copyUntouched_same h2 h4⟩
  unfold tsCall
  simp only [Bool.false_eq_true, if_false]
  rw [hq', Exc.ok_bind]
  rfl

theorem runSteps_sim {τ τ' : Type} {M : τ → τ' → Prop}
    {call : τ → σ → State → Int → τ × σ × State × Except Err (Dict DataArray × State)}
    {call' : τ' → σ' → State → Int → τ' × σ' × State × Except Err (Dict DataArray × State)} {dt : Int}
    (hc : ∀ x x' w w' s s', M x x' → SameStates s s' → CallSim M (call x w s dt) (call' x' w' s' dt)) :
    ∀ (n : Nat) (x : τ) (x' : τ') (w : σ) (w' : σ') (s s' : State), M x x' → SameStates s s' → ∀ r,
      runSteps call dt n x w s = some r → ∃ r', runSteps call' dt n x' w' s' = some r' ∧ SameStates r.2.2 r'.2.2 := by
  intro n
  induction n with
  | zero =>
    intro x x' w w' s s' _ hs r hr
    cases hr
    exact ⟨_, rfl, hs⟩
  | succ n ih =>
    intro x x' w w' s s' hM hs r hr
    have := hc x x' w w' s s' hM hs
    unfold runSteps at hr ⊢
    revert this hr
    generalize call x w s dt = c
    generalize call' x' w' s' dt = c'
    obtain ⟨x1, w1, st1, res⟩ := c
    obtain ⟨x1', w1', st1', res'⟩ := c'
    intro this hr
    cases res with
    | error e => cases hr
    | ok o =>
      obtain ⟨o', e, h1, -, -, h4⟩ := this o rfl
      dsimp only at e
      subst e
      exact ih x1 x1' w1 w1' o.2 o'.2 h1 h4 r hr

end

end Verif

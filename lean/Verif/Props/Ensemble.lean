import Verif.Spec.Ensemble
import Verif.Props.Commutes
import Mathlib.Algebra.BigOperators.Ring.Finset
import Mathlib.Tactic.Ring
import Mathlib.Tactic.FieldSimp
/-!
# C121: the mean of an ensemble of runs
-/

namespace Verif

variable {ι : Type}

/-! ## Arrays of the members -/

/-- The arrays of the members have the same axes, lengths and attributes. -/
structure Members (v : ι → DataArray) : Prop where
  wf : ∀ i, (v i).WF
  dims : ∀ i j, (v i).dims = (v j).dims
  shape : ∀ i j, (v i).arr.shape = (v j).arr.shape
  attrs : ∀ i j, (v i).attrs = (v j).attrs

/-- An operation applied to every member; `i0` tells whether it fails. -/
def liftOne (i0 : ι) (f : DataArray → Except Err DataArray) (v : ι → DataArray) : Except Err (ι → DataArray) :=
  match f (v i0) with
  | .error e => .error e
  | .ok _ => .ok fun i => match f (v i) with
    | .ok r => r
    | .error _ => v i

/-- A binary operation applied to every member. -/
def liftTwo (i0 : ι) (f : DataArray → DataArray → Except Err DataArray) (v u : ι → DataArray) : Except Err (ι → DataArray) :=
  match f (v i0) (u i0) with
  | .error e => .error e
  | .ok _ => .ok fun i => match f (v i) (u i) with
    | .ok r => r
    | .error _ => v i

/-- The operations of DataArrays, member by member. -/
def memberArith (R : Registry) (i0 : ι) : Arith (ι → DataArray) where
  add := liftTwo i0 DataArray.add
  sub := liftTwo i0 DataArray.sub
  iadd := liftTwo i0 DataArray.iadd
  smul c v := fun i => (v i).smul c
  divide v c := fun i => { v i with arr := (v i).arr.map (fun x => x / c * 1), attrs := [] }
  toUnits v u := liftOne i0 (fun a => a.toUnits R u) v
  attrs v := (v i0).attrs
  setAttrs v m := fun i => { v i with attrs := m }
  isContainer _ := true

/-- Two arrays with the same axes, lengths and attributes. -/
def SameFrame (a b : DataArray) : Prop := a.WF ∧ b.WF ∧ a.dims = b.dims ∧ a.arr.shape = b.arr.shape ∧ a.attrs = b.attrs

theorem SameFrame.len {a b : DataArray} (h : SameFrame a b) (d : String) : a.len d = b.len d := by
  unfold DataArray.len; rw [h.2.2.1, h.2.2.2.1]

theorem Members.frame {v : ι → DataArray} (h : Members v) (i j : ι) : SameFrame (v i) (v j) :=
  ⟨h.wf i, h.wf j, h.dims i j, h.shape i j, h.attrs i j⟩

theorem sameFrame_respected : Respected SameFrame where
  attrs h := h.2.2.2.2
  map h f m := ⟨h.1, h.2.1, h.2.2.1, h.2.2.2.1, rfl⟩
  setAttrs h m := ⟨h.1, h.2.1, h.2.2.1, h.2.2.2.1, rfl⟩
  subset h h' := by rw [h.2.2.1, h'.2.2.1]
  binop := by
    intro a b a' b' h h' f
    by_cases hs : SameLengths a a'
    · have hs' : SameLengths b b' := by
        intro d h1 h2
        rw [← h.len, ← h'.len]
        exact hs d (h.2.2.1 ▸ h1) (h'.2.2.1 ▸ h2)
      obtain ⟨r, er, wr, dr, l1, l2, _⟩ := (binop_spec f a a' h.1 h'.1).1 hs
      obtain ⟨q, eq, wq, dq, m1, m2, _⟩ := (binop_spec f b b' h.2.1 h'.2.1).1 hs'
      rw [er, eq]
      refine ⟨wr, wq, ?_, ?_, ?_⟩
      · rw [dr, dq, h.2.2.1, h'.2.2.1]
      · unfold DataArray.binop at er eq
        dsimp only at er eq
        split at er
        · split at eq
          · cases er
            cases eq
            show List.map _ _ = List.map _ _
            rw [h.2.2.1, h'.2.2.1]
            simp only [h.len, h'.len]
          · cases eq
        · cases er
      · unfold DataArray.binop at er eq
        dsimp only at er eq
        split at er
        · split at eq
          · cases er
            cases eq
            rfl
          · cases eq
        · cases er
    · have hs' : ¬ SameLengths b b' := by
        intro hb
        apply hs
        intro d h1 h2
        rw [h.len, h'.len]
        exact hb d (h.2.2.1 ▸ h1) (h'.2.2.1 ▸ h2)
      rw [(binop_spec f a a' h.1 h'.1).2 hs, (binop_spec f b b' h.2.1 h'.2.1).2 hs']
      rfl

/-- An operation that keeps frames gives every member a result, in the same frame. -/
theorem liftOne_members {i0 : ι} {f : DataArray → Except Err DataArray}
    (hf : ∀ {a b}, SameFrame a b → Exc.Rel SameFrame (f a) (f b)) {v : ι → DataArray} (hv : Members v) :
    (∃ e, liftOne i0 f v = .error e ∧ ∀ i, f (v i) = .error e) ∨
    ∃ r, liftOne i0 f v = .ok r ∧ Members r ∧ ∀ i, f (v i) = .ok (r i) := by
  unfold liftOne
  cases h0 : f (v i0) with
  | error e =>
    refine .inl ⟨e, rfl, fun i => ?_⟩
    have := hf (hv.frame i0 i)
    rw [h0] at this
    cases h1 : f (v i) with
    | ok r => rw [h1] at this; exact this.elim
    | error e' => rw [h1] at this; rw [show e = e' from this]
  | ok r0 =>
    have hok : ∀ i, ∃ r, f (v i) = .ok r := by
      intro i
      have := hf (hv.frame i0 i)
      rw [h0] at this
      cases h1 : f (v i) with
      | ok r => exact ⟨r, rfl⟩
      | error e' => rw [h1] at this; exact this.elim
    choose r hr using hok
    have hfr : ∀ i j, SameFrame (r i) (r j) := by
      intro i j
      have := hf (hv.frame i j)
      rw [hr i, hr j] at this
      exact this
    refine .inr ⟨r, ?_, ⟨fun i => (hfr i i).1, fun i j => (hfr i j).2.2.1, fun i j => (hfr i j).2.2.2.1,
      fun i j => (hfr i j).2.2.2.2⟩, hr⟩
    dsimp only
    congr 1
    funext i
    rw [hr i]

theorem liftTwo_members {i0 : ι} {f : DataArray → DataArray → Except Err DataArray}
    (hf : ∀ {a b a' b'}, SameFrame a b → SameFrame a' b' → Exc.Rel SameFrame (f a a') (f b b')) {v u : ι → DataArray}
    (hv : Members v) (hu : Members u) :
    (∃ e, liftTwo i0 f v u = .error e ∧ ∀ i, f (v i) (u i) = .error e) ∨
    ∃ r, liftTwo i0 f v u = .ok r ∧ Members r ∧ ∀ i, f (v i) (u i) = .ok (r i) := by
  unfold liftTwo
  cases h0 : f (v i0) (u i0) with
  | error e =>
    refine .inl ⟨e, rfl, fun i => ?_⟩
    have := hf (hv.frame i0 i) (hu.frame i0 i)
    rw [h0] at this
    cases h1 : f (v i) (u i) with
    | ok r => rw [h1] at this; exact this.elim
    | error e' => rw [h1] at this; rw [show e = e' from this]
  | ok r0 =>
    have hok : ∀ i, ∃ r, f (v i) (u i) = .ok r := by
      intro i
      have := hf (hv.frame i0 i) (hu.frame i0 i)
      rw [h0] at this
      cases h1 : f (v i) (u i) with
      | ok r => exact ⟨r, rfl⟩
      | error e' => rw [h1] at this; exact this.elim
    choose r hr using hok
    have hfr : ∀ i j, SameFrame (r i) (r j) := by
      intro i j
      have := hf (hv.frame i j) (hu.frame i j)
      rw [hr i, hr j] at this
      exact this
    refine .inr ⟨r, ?_, ⟨fun i => (hfr i i).1, fun i j => (hfr i j).2.2.1, fun i j => (hfr i j).2.2.2.1,
      fun i j => (hfr i j).2.2.2.2⟩, hr⟩
    dsimp only
    congr 1
    funext i
    rw [hr i]

/-- What the operations on ensembles do to member `i`. -/
theorem member_stand (R : Registry) (i0 i : ι) :
    StandFor R (memberArith R i0) (fun _ v a => Members v ∧ v i = a) (fun _ v a => Members v ∧ v i = a)
      (fun v a => v i = a) := by
  have one : ∀ {f : DataArray → Except Err DataArray}, (∀ {a b}, SameFrame a b → Exc.Rel SameFrame (f a) (f b)) →
      ∀ {v : ι → DataArray} {a : DataArray}, Members v ∧ v i = a →
      Exc.Rel (fun v a => Members v ∧ v i = a) (liftOne i0 f v) (f a) := by
    rintro f hf v a ⟨hv, rfl⟩
    rcases liftOne_members (i0 := i0) hf hv with ⟨e, h1, h2⟩ | ⟨r, h1, h2, h3⟩
    · rw [h1, h2]; rfl
    · rw [h1, h3]; exact ⟨h2, rfl⟩
  have two : ∀ {f : DataArray → DataArray → Except Err DataArray},
      (∀ {a b a' b'}, SameFrame a b → SameFrame a' b' → Exc.Rel SameFrame (f a a') (f b b')) →
      ∀ {v u : ι → DataArray} {a b : DataArray}, Members v ∧ v i = a → Members u ∧ u i = b →
      Exc.Rel (fun v a => Members v ∧ v i = a) (liftTwo i0 f v u) (f a b) := by
    rintro f hf v u a b ⟨hv, rfl⟩ ⟨hu, rfl⟩
    rcases liftTwo_members (i0 := i0) hf hv hu with ⟨e, h1, h2⟩ | ⟨r, h1, h2, h3⟩
    · rw [h1, h2]; rfl
    · rw [h1, h3]; exact ⟨h2, rfl⟩
  have hQ := sameFrame_respected
  exact {
    attrsS := by rintro k v a ⟨hv, rfl⟩; exact hv.attrs i0 i
    attrsT := by rintro k v a ⟨hv, rfl⟩; exact hv.attrs i0 i
    container := fun _ => rfl
    toUnitsS := fun h u => one (fun hab => hQ.toUnits hab u) h
    toUnitsT := fun h u => one (fun hab => hQ.toUnits hab u) h
    smulS := by rintro k v a ⟨hv, rfl⟩ c; exact ⟨⟨hv.wf, hv.dims, hv.shape, fun _ _ => rfl⟩, rfl⟩
    smulT := by rintro k v a ⟨hv, rfl⟩ c; exact ⟨⟨hv.wf, hv.dims, hv.shape, fun _ _ => rfl⟩, rfl⟩
    setAttrs := by rintro k v a ⟨hv, rfl⟩ m; exact ⟨⟨hv.wf, hv.dims, hv.shape, fun _ _ => rfl⟩, rfl⟩
    divide := by rintro k v a ⟨hv, rfl⟩ c; exact ⟨⟨hv.wf, hv.dims, hv.shape, fun _ _ => rfl⟩, rfl⟩
    addSS := fun h h' => two (fun a b => hQ.add a b) h h'
    addST := fun h h' => two (fun a b => hQ.add a b) h h'
    addTT := fun h h' => two (fun a b => hQ.add a b) h h'
    subSS := fun h h' => two (fun a b => hQ.sub a b) h h'
    subTT := fun h h' => two (fun a b => hQ.sub a b) h h'
    iadd := fun h h' => two (fun a b => hQ.iadd a b) h h'
    diag := fun h => h.2 }

/-! ## Means -/

section
variable [Fintype ι] {w : ι → Rat}

theorem MeanOf.frame {v : ι → DataArray} {a : DataArray} (h : MeanOf w v a) (i : ι) : SameFrame (v i) a :=
  ⟨⟨by rw [h.dims, h.shape]; exact h.wf.1, by rw [h.dims]; exact h.wf.2⟩, h.wf, h.dims i, h.shape i, h.attrs i⟩

theorem MeanOf.members {v : ι → DataArray} {a : DataArray} (h : MeanOf w v a) : Members v :=
  ⟨fun i => (h.frame i).1, fun i j => (h.dims i).trans (h.dims j).symm, fun i j => (h.shape i).trans (h.shape j).symm,
    fun i j => (h.attrs i).trans (h.attrs j).symm⟩

/-- Functions of one element that turn means into means. -/
theorem MeanOf.map {v : ι → DataArray} {a : DataArray} (h : MeanOf w v a) {f : Rat → Rat}
    (hf : ∀ x : ι → Rat, f (∑ i, w i * x i) = ∑ i, w i * f (x i)) (m : Dict String) :
    MeanOf w (fun i => { v i with arr := (v i).arr.map f, attrs := m }) { a with arr := a.arr.map f, attrs := m } :=
  ⟨h.wf, h.dims, h.shape, fun _ => rfl, fun ix hix => by
    have := h.val ix hix
    show f (a.at' ix) = ∑ i, w i * f ((v i).at' ix)
    rw [this, hf]⟩

theorem MeanOf.attrs' {v : ι → DataArray} {a : DataArray} (h : MeanOf w v a) (m : Dict String) :
    MeanOf w (fun i => { v i with attrs := m }) { a with attrs := m } :=
  ⟨h.wf, h.dims, h.shape, fun _ => rfl, h.val⟩

/-- Operations on two elements that turn means into means. -/
theorem MeanOf.binop {v u : ι → DataArray} {a b : DataArray} (h : MeanOf w v a) (h' : MeanOf w u b)
    {f : Rat → Rat → Rat} (hf : ∀ x y : ι → Rat, f (∑ i, w i * x i) (∑ i, w i * y i) = ∑ i, w i * f (x i) (y i)) :
    ((∀ i, DataArray.binop f (v i) (u i) = .error .valueError) ∧ DataArray.binop f a b = .error .valueError) ∨
    ∃ r q, (∀ i, DataArray.binop f (v i) (u i) = .ok (r i)) ∧ DataArray.binop f a b = .ok q ∧ MeanOf w r q := by
  have hrel : ∀ i, Exc.Rel SameFrame (DataArray.binop f (v i) (u i)) (DataArray.binop f a b) := fun i =>
    sameFrame_respected.binop (h.frame i) (h'.frame i) f
  by_cases hs : SameLengths a b
  · obtain ⟨q, eq, wq, dq, m1, m2, vq⟩ := (binop_spec f a b h.wf h'.wf).1 hs
    have hok : ∀ i, ∃ r, DataArray.binop f (v i) (u i) = .ok r ∧ SameFrame r q ∧
        ∀ ix, r.at' ix = f ((v i).at' ix) ((u i).at' ix) := by
      intro i
      have hsi : SameLengths (v i) (u i) := by
        intro d h1 h2
        rw [(h.frame i).len, (h'.frame i).len]
        exact hs d (h.dims i ▸ h1) (h'.dims i ▸ h2)
      obtain ⟨r, er, wr, dr, l1, l2, vr⟩ := (binop_spec f (v i) (u i) (h.frame i).1 (h'.frame i).1).1 hsi
      have := hrel i
      rw [er, eq] at this
      exact ⟨r, er, this, vr⟩
    choose r hr using hok
    refine .inr ⟨r, q, fun i => (hr i).1, eq, wq, fun i => (hr i).2.1.2.2.1, fun i => (hr i).2.1.2.2.2.1,
      fun i => (hr i).2.1.2.2.2.2, fun ix hix => ?_⟩
    rw [vq, h.val ix, h'.val ix, hf]
    · exact Finset.sum_congr rfl fun i _ => by rw [(hr i).2.2 ix]
    · intro d hd
      rw [← m2 d hd]
      refine hix d ?_
      rw [dq, List.mem_append, List.mem_filter]
      by_cases hda : d ∈ a.dims
      · exact .inl hda
      · exact .inr ⟨hd, by simpa using hda⟩
    · intro d hd
      rw [← m1 d hd]
      refine hix d ?_
      rw [dq]
      exact List.mem_append_left _ hd
  · refine .inl ⟨fun i => ?_, (binop_spec f a b h.wf h'.wf).2 hs⟩
    refine (binop_spec f _ _ (h.frame i).1 (h'.frame i).1).2 (fun hb => hs ?_)
    intro d h1 h2
    rw [← (h.frame i).len, ← (h'.frame i).len]
    exact hb d (h.dims i ▸ h1) (h'.dims i ▸ h2)

theorem MeanOf.lift {i0 : ι} {g : DataArray → DataArray → Except Err DataArray} {v u : ι → DataArray} {x : Except Err DataArray}
    (h : (∃ e, (∀ i, g (v i) (u i) = .error e) ∧ x = .error e) ∨
      ∃ r q, (∀ i, g (v i) (u i) = .ok (r i)) ∧ x = .ok q ∧ MeanOf w r q) :
    Exc.Rel (MeanOf w) (liftTwo i0 g v u) x := by
  rcases h with ⟨e, h1, h2⟩ | ⟨r, q, h1, h2, h3⟩
  · unfold liftTwo; rw [h1 i0, h2]; rfl
  · have : liftTwo i0 g v u = .ok r := by
      unfold liftTwo
      rw [h1 i0]
      dsimp only
      congr 1
      funext i
      rw [h1 i]
    rw [this, h2]
    exact h3

theorem MeanOf.add {i0 : ι} {v u : ι → DataArray} {a b : DataArray} (h : MeanOf w v a) (h' : MeanOf w u b) :
    Exc.Rel (MeanOf w) (liftTwo i0 DataArray.add v u) (a.add b) := by
  apply MeanOf.lift
  unfold DataArray.add
  rcases h.binop h' (f := (· + ·)) (fun x y => by rw [← Finset.sum_add_distrib]; exact Finset.sum_congr rfl fun i _ => by ring)
    with ⟨h1, h2⟩ | ⟨r, q, h1, h2, h3⟩
  · exact .inl ⟨_, fun i => by rw [h1 i]; rfl, by rw [h2]; rfl⟩
  · refine .inr ⟨fun i => { r i with attrs := a.attrs }, { q with attrs := a.attrs }, fun i => ?_, by rw [h2]; rfl, h3.attrs' _⟩
    rw [h1 i, h.attrs i]; rfl

theorem MeanOf.sub {i0 : ι} {v u : ι → DataArray} {a b : DataArray} (h : MeanOf w v a) (h' : MeanOf w u b) :
    Exc.Rel (MeanOf w) (liftTwo i0 DataArray.sub v u) (a.sub b) := by
  apply MeanOf.lift
  unfold DataArray.sub
  rcases h.binop h' (f := (· - ·)) (fun x y => by rw [← Finset.sum_sub_distrib]; exact Finset.sum_congr rfl fun i _ => by ring)
    with ⟨h1, h2⟩ | ⟨r, q, h1, h2, h3⟩
  · exact .inl ⟨_, fun i => by rw [h1 i]; rfl, by rw [h2]; rfl⟩
  · refine .inr ⟨fun i => { r i with attrs := a.attrs }, { q with attrs := a.attrs }, fun i => ?_, by rw [h2]; rfl, h3.attrs' _⟩
    rw [h1 i, h.attrs i]; rfl

theorem MeanOf.iadd {i0 : ι} {v u : ι → DataArray} {a b : DataArray} (h : MeanOf w v a) (h' : MeanOf w u b) :
    Exc.Rel (MeanOf w) (liftTwo i0 DataArray.iadd v u) (a.iadd b) := by
  by_cases hs : ∀ d ∈ b.dims, d ∈ a.dims
  · have e1 : ∀ i, (v i).iadd (u i) = (v i).add (u i) := by
      intro i
      unfold DataArray.iadd
      rw [if_pos (by rw [h.dims i, h'.dims i]; exact hs)]
    have e2 : a.iadd b = a.add b := by unfold DataArray.iadd; rw [if_pos hs]
    have e3 : liftTwo i0 DataArray.iadd v u = liftTwo i0 DataArray.add v u := by
      unfold liftTwo
      simp only [e1]
    rw [e2, e3]
    exact h.add h'
  · apply MeanOf.lift
    refine .inl ⟨.valueError, fun i => ?_, ?_⟩
    · unfold DataArray.iadd
      rw [if_neg (by rw [h.dims i, h'.dims i]; exact hs)]
    · unfold DataArray.iadd
      rw [if_neg hs]

theorem MeanOf.toUnits (R : Registry) (hw : ∑ i, w i = 1) {i0 : ι} {v : ι → DataArray} {a : DataArray} (h : MeanOf w v a)
    (u : String) : Exc.Rel (MeanOf w) (liftOne i0 (fun x => x.toUnits R u) v) (a.toUnits R u) := by
  have hop : (∃ e, (∀ i, (v i).toUnits R u = .error e) ∧ a.toUnits R u = .error e) ∨
      ∃ r q, (∀ i, (v i).toUnits R u = .ok (r i)) ∧ a.toUnits R u = .ok q ∧ MeanOf w r q := by
    unfold DataArray.toUnits DataArray.dataArrayToUnits
    simp only [h.attrs]
    cases a.attrs.get? "units" with
    | none => exact .inl ⟨_, fun _ => rfl, rfl⟩
    | some own =>
      dsimp only
      cases R.unit own with
      | error e => cases e <;> exact .inl ⟨_, fun _ => rfl, rfl⟩
      | ok x =>
        cases R.unit u with
        | error e => cases e <;> exact .inl ⟨_, fun _ => rfl, rfl⟩
        | ok y =>
          simp only [Exc.ok_bind]
          by_cases h1 : x.sameQty y = true
          · simp only [if_pos h1]; exact .inr ⟨_, _, fun _ => rfl, rfl, h⟩
          · simp only [if_neg h1]
            by_cases h2 : x.dim = y.dim
            · simp only [if_pos h2]
              refine .inr ⟨_, _, fun _ => rfl, rfl, h.map (f := x.convert y) (fun z => ?_) _⟩
              unfold PintUnit.convert PintUnit.toBase
              have : ∀ i, w i * ((z i * x.scale + x.offset - y.offset) / y.scale) =
                  w i * z i * (x.scale / y.scale) + w i * ((x.offset - y.offset) / y.scale) := fun i => by ring
              rw [Finset.sum_congr rfl fun i _ => this i, Finset.sum_add_distrib, ← Finset.sum_mul, ← Finset.sum_mul, hw]
              ring
            · simp only [if_neg h2]; exact .inl ⟨_, fun _ => rfl, rfl⟩
  rcases hop with ⟨e, h1, h2⟩ | ⟨r, q, h1, h2, h3⟩
  · unfold liftOne; dsimp only; rw [h1 i0, h2]; rfl
  · have : liftOne i0 (fun x => x.toUnits R u) v = .ok r := by
      unfold liftOne
      dsimp only
      rw [h1 i0]
      dsimp only
      congr 1
      funext i
      rw [h1 i]
    rw [this, h2]
    exact h3

theorem mean_stand (R : Registry) (i0 : ι) (hw : ∑ i, w i = 1) {W : (ι → DataArray) → DataArray → Prop}
    (hW : ∀ v a, MeanOf w v a → W v a) :
    StandFor R (memberArith R i0) (fun _ => MeanOf w) (fun _ => MeanOf w) W where
  attrsS h := h.attrs i0
  attrsT h := h.attrs i0
  container _ := rfl
  toUnitsS h u := h.toUnits R hw u
  toUnitsT h u := h.toUnits R hw u
  smulS h c := h.map (fun x => by rw [Finset.mul_sum]; exact Finset.sum_congr rfl fun i _ => by ring) _
  smulT h c := h.map (fun x => by rw [Finset.mul_sum]; exact Finset.sum_congr rfl fun i _ => by ring) _
  setAttrs h m := h.attrs' m
  divide h c := h.map (fun x => by
    rw [mul_one, div_eq_mul_inv, Finset.sum_mul]; exact Finset.sum_congr rfl fun i _ => by ring) _
  addSS h h' := h.add h'
  addST h h' := h.add h'
  addTT h h' := h.add h'
  subSS h h' := h.sub h'
  subTT h h' := h.sub h'
  iadd h h' := h.iadd h'
  diag h := hW _ _ h

theorem nonempty_of_weights (hw : ∑ i, w i = 1) : Nonempty ι := by
  by_contra h
  rw [not_nonempty_iff] at h
  rw [Finset.univ_eq_empty, Finset.sum_empty] at hw
  exact absurd hw (by norm_num)

/-! ## Ensembles as one program -/

omit [Fintype ι] in
theorem memberDict_ext (i0 : ι) {T T' : Dict (ι → DataArray)} (h : ∀ i, memberDict i T = memberDict i T') : T = T' := by
  induction T generalizing T' with
  | nil =>
    cases T' with
    | nil => rfl
    | cons a l => have := h i0; cases this
  | cons a l ih =>
    cases T' with
    | nil => have := h i0; cases this
    | cons b l' =>
      obtain ⟨ka, va⟩ := a
      obtain ⟨kb, vb⟩ := b
      have h' : ∀ i, (ka, va i) = (kb, vb i) ∧ memberDict i l = memberDict i l' := by
        intro i
        have := h i
        unfold memberDict Dict.mapVal at this
        simp only [List.map_cons, List.cons.injEq] at this
        exact this
      have hk : ka = kb := (Prod.mk.inj (h' i0).1).1
      have hv : va = vb := funext fun i => (Prod.mk.inj (h' i).1).2
      rw [hk, hv, ih fun i => (h' i).2]

theorem keyRel_member {i : ι} {T : Dict (ι → DataArray)} {t : Dict DataArray} (h : KeyRel (fun _ => MeanOf w) T t) :
    KeyRel (fun _ v a => Members v ∧ v i = a) T (memberDict i T) := by
  induction h with
  | nil => exact List.Forall₂.nil
  | cons hab _ ih => exact List.Forall₂.cons ⟨rfl, hab.2.members, rfl⟩ ih

omit [Fintype ι] in
theorem dictRel_member (i : ι) (T : Dict (ι → DataArray)) : DictRel (fun v a => v i = a) T (memberDict i T) := by
  induction T with
  | nil => exact List.Forall₂.nil
  | cons a l ih => exact List.Forall₂.cons ⟨rfl, rfl⟩ ih

omit [Fintype ι] in
theorem keyRel_member_eq {i : ι} {T : Dict (ι → DataArray)} {t : Dict DataArray}
    (h : KeyRel (fun _ v a => Members v ∧ v i = a) T t) : t = memberDict i T := by
  induction h with
  | nil => rfl
  | cons hab hl ih =>
    rename_i a b l l'
    show b :: l' = (a.1, a.2 i) :: memberDict i l
    rw [← ih, show b = (a.1, a.2 i) from Prod.ext hab.1.symm hab.2.2.symm]

omit [Fintype ι] in
theorem dictRel_member_eq {i : ι} {T : Dict (ι → DataArray)} {t : Dict DataArray}
    (h : DictRel (fun v a => v i = a) T t) : t = memberDict i T := by
  induction h with
  | nil => rfl
  | cons hab hl ih =>
    rename_i a b l l'
    show b :: l' = (a.1, a.2 i) :: memberDict i l
    rw [← ih, show b = (a.1, a.2 i) from Prod.ext hab.1.symm hab.2.symm]

theorem stateRel_member {i : ι} {x : EState (ι → DataArray)} {z : State} (h : MeanState w x z) :
    StateRel (fun _ v a => Members v ∧ v i = a) x (memberState i x) := by
  induction h with
  | nil => exact List.Forall₂.nil
  | cons hab hl ih =>
    rename_i a b l l'
    refine List.Forall₂.cons ⟨rfl, ?_⟩ ih
    obtain ⟨ka, va⟩ := a
    obtain ⟨kb, vb⟩ := b
    have h2 := hab.2
    cases va with
    | time t => rfl
    | da v =>
      cases vb with
      | time t => exact h2.elim
      | da a => exact ⟨MeanOf.members h2, rfl⟩

omit [Fintype ι] in
theorem stateRel_member_eq {i : ι} {x : EState (ι → DataArray)} {s : State}
    (h : StateRel (fun _ v a => Members v ∧ v i = a) x s) : s = memberState i x := by
  induction h with
  | nil => rfl
  | cons hab hl ih =>
    rename_i a b l l'
    obtain ⟨ka, va⟩ := a
    obtain ⟨kb, vb⟩ := b
    obtain ⟨h1, h2⟩ := hab
    simp only at h1 h2
    subst h1
    show (ka, vb) :: l' = (ka, memberVal i va) :: memberState i l
    rw [← ih]
    congr 2
    cases va with
    | time t =>
      cases vb with
      | time t' => rw [show t = t' from h2]; rfl
      | da a => exact h2.elim
    | da v =>
      cases vb with
      | time t => exact h2.elim
      | da a => rw [← h2.2]; rfl

/-- The mean of arrays of members. -/
def meanArray (w : ι → Rat) (i0 : ι) (v : ι → DataArray) : DataArray :=
  { v i0 with arr := { (v i0).arr with get := fun idx => ∑ i, w i * (v i).arr.get idx } }

theorem meanArray_mean (w : ι → Rat) (i0 : ι) {v : ι → DataArray} (h : Members v) : MeanOf w v (meanArray w i0 v) :=
  ⟨h.wf i0, fun i => h.dims i i0, fun i => h.shape i i0, fun i => h.attrs i i0, fun ix _ => by
    show ∑ i, w i * (v i).arr.get ((v i0).dims.map ix) = _
    exact Finset.sum_congr rfl fun i _ => by rw [← h.dims i i0]; rfl⟩

theorem mean_exists (w : ι → Rat) {i : ι} {x : EState (ι → DataArray)} {s : State}
    (h : StateRel (fun _ v a => Members v ∧ v i = a) x s) : ∃ z, MeanState w x z := by
  induction h with
  | nil => exact ⟨[], List.Forall₂.nil⟩
  | cons hab hl ih =>
    rename_i a b l l'
    obtain ⟨z, hz⟩ := ih
    obtain ⟨ka, va⟩ := a
    obtain ⟨kb, vb⟩ := b
    obtain ⟨h1, h2⟩ := hab
    cases va with
    | time t => exact ⟨(ka, .time t) :: z, List.Forall₂.cons ⟨rfl, rfl⟩ hz⟩
    | da v =>
      cases vb with
      | time t => exact h2.elim
      | da a => exact ⟨(ka, .da (meanArray w i v)) :: z, List.Forall₂.cons ⟨rfl, meanArray_mean w i h2.1⟩ hz⟩

/-- The components applied to every member. -/
noncomputable def ensembleProg {σ : Type} (i0 : ι) (p : Prog σ) : ProgOver σ (ι → DataArray) := fun s x dt =>
  ((p s (memberState i0 x) dt).1, by
    classical
    exact if h : ∃ TD : Dict (ι → DataArray) × Dict (ι → DataArray),
        ∀ i, (p s (memberState i x) dt).2 = .ok (memberDict i TD.1, memberDict i TD.2) then .ok h.choose
      else match (p s (memberState i0 x) dt).2 with
        | .error e => .error e
        | .ok _ => .error .typeError)

omit [Fintype ι] in
theorem ensembleProg_ok {σ : Type} (i0 : ι) {p : Prog σ} {s : σ} {x : EState (ι → DataArray)} {dt : Int}
    {T D : Dict (ι → DataArray)} (h : ∀ i, (p s (memberState i x) dt).2 = .ok (memberDict i T, memberDict i D)) :
    (ensembleProg i0 p s x dt).2 = .ok (T, D) := by
  unfold ensembleProg
  dsimp only
  have hex : ∃ TD : Dict (ι → DataArray) × Dict (ι → DataArray),
      ∀ i, (p s (memberState i x) dt).2 = .ok (memberDict i TD.1, memberDict i TD.2) := ⟨(T, D), h⟩
  rw [dif_pos hex]
  have hc := hex.choose_spec
  congr 1
  refine Prod.ext (memberDict_ext i0 fun i => ?_) (memberDict_ext i0 fun i => ?_)
  · have := (h i).symm.trans (hc i)
    injection this with this
    exact (Prod.mk.inj this).1.symm
  · have := (h i).symm.trans (hc i)
    injection this with this
    exact (Prod.mk.inj this).2.symm

omit [Fintype ι] in
theorem ensembleProg_error {σ : Type} (i0 : ι) {p : Prog σ} {s : σ} {x : EState (ι → DataArray)} {dt : Int} {e : Err}
    (h : ∀ i, (p s (memberState i x) dt).2 = .error e) : (ensembleProg i0 p s x dt).2 = .error e := by
  unfold ensembleProg
  dsimp only
  rw [dif_neg]
  · rw [h i0]
  · rintro ⟨TD, hTD⟩
    have := (h i0).symm.trans (hTD i0)
    cases this

theorem ensembleProg_mean {σ : Type} (i0 : ι) {W : (ι → DataArray) → DataArray → Prop} {p : Prog σ} (hp : KeepsMeans w W p) :
    ProgRel (fun _ => MeanOf w) (fun _ => MeanOf w) W (ensembleProg i0 p) p := by
  intro s x z dt hz
  obtain ⟨h1, h2⟩ := hp s x z dt hz
  refine ⟨h1 i0, ?_⟩
  rcases h2 with ⟨e, h2, h3⟩ | ⟨T, D, t, d, h2, h3, h4, h5⟩
  · rw [ensembleProg_error i0 h2, h3]; rfl
  · rw [ensembleProg_ok i0 h2, h3]; exact ⟨h4, h5⟩

theorem ensembleProg_member {σ : Type} (i0 i : ι) {W : (ι → DataArray) → DataArray → Prop} {p : Prog σ} (hp : KeepsMeans w W p) :
    ProgRel (fun _ v a => Members v ∧ v i = a) (fun _ v a => Members v ∧ v i = a) (fun v a => v i = a) (ensembleProg i0 p) p := by
  intro s x s' dt hs
  obtain ⟨z, hz⟩ := mean_exists w hs
  obtain rfl := stateRel_member_eq hs
  obtain ⟨h1, h2⟩ := hp s x z dt hz
  refine ⟨(h1 i0).trans (h1 i).symm, ?_⟩
  rcases h2 with ⟨e, h2, h3⟩ | ⟨T, D, t, d, h2, h3, h4, h5⟩
  · rw [ensembleProg_error i0 h2, h2]; rfl
  · rw [ensembleProg_ok i0 h2, h2]; exact ⟨keyRel_member h4, dictRel_member i D⟩

/-! ## Time steppers -/

theorem memberAB_rel {i : ι} {h : ABOver (ι → DataArray)} {ab : AB} (hh : ABOverRel (fun _ => MeanOf w) h ab) :
    ABOverRel (fun _ v a => Members v ∧ v i = a) h (memberAB i h) := by
  refine ⟨rfl, rfl, ?_⟩
  have := hh.2.2
  unfold memberAB
  dsimp only
  revert this
  generalize h.hist = l
  generalize ab.hist = l'
  intro this
  induction this with
  | nil => exact List.Forall₂.nil
  | cons hab _ ih => exact List.Forall₂.cons (keyRel_member hab) ih

omit [Fintype ι] in
theorem memberAB_eq {i : ι} {h : ABOver (ι → DataArray)} {ab : AB}
    (hh : ABOverRel (fun _ v a => Members v ∧ v i = a) h ab) : ab = memberAB i h := by
  obtain ⟨o, t, l⟩ := ab
  obtain ⟨h1, h2, h3⟩ := hh
  unfold memberAB
  simp only at h1 h2 h3
  rw [h1, h2]
  congr 1
  revert h3
  generalize h.hist = l'
  intro h3
  induction h3 with
  | nil => rfl
  | cons hab _ ih => rw [List.map_cons, ← ih, ← keyRel_member_eq hab]

theorem memberLF_rel {i : ι} {h : LFOver (ι → DataArray)} {lf : LF} (hh : LFOverRel (fun _ => MeanOf w) h lf) :
    LFOverRel (fun _ v a => Members v ∧ v i = a) h (memberLF i h) := by
  refine ⟨rfl, rfl, rfl, ?_⟩
  have := hh.2.2.2
  unfold memberLF
  dsimp only
  revert this
  cases h.old <;> cases lf.old <;> intro this
  · trivial
  · trivial
  · exact this.elim
  · exact stateRel_member this

omit [Fintype ι] in
theorem memberLF_eq {i : ι} {h : LFOver (ι → DataArray)} {lf : LF}
    (hh : LFOverRel (fun _ v a => Members v ∧ v i = a) h lf) : lf = memberLF i h := by
  obtain ⟨a, b, c, o⟩ := lf
  obtain ⟨h1, h2, h3, h4⟩ := hh
  unfold memberLF
  simp only at h1 h2 h3 h4
  rw [h1, h2, h3]
  congr 1
  revert h4
  cases h.old <;> cases o <;> intro h4
  · rfl
  · exact h4.elim
  · exact h4.elim
  · rw [stateRel_member_eq h4]; rfl

omit [Fintype ι] in
theorem memberOut_eq {i : ι} {x : Except Err (Dict (ι → DataArray) × EState (ι → DataArray))}
    {y : Except Err (Dict DataArray × State)}
    (h : StepRel (fun _ v a => Members v ∧ v i = a) (fun v a => v i = a) x y) : y = memberOut i x := by
  cases x with
  | error e =>
    cases y with
    | error f => rw [show e = f from h]; rfl
    | ok b => exact h.elim
  | ok a =>
    cases y with
    | error f => exact h.elim
    | ok b =>
      obtain ⟨h1, h2⟩ := h
      obtain ⟨d, n⟩ := b
      simp only at h1 h2
      rw [dictRel_member_eq h1, stateRel_member_eq h2]
      rfl

/-- Calls over ensembles that give every member what its own call gives, and the mean what
its own call gives. -/
theorem calls_mean {σ τ τE : Type} (R : Registry) (i0 : ι) (hw : ∑ i, w i = 1) {W : (ι → DataArray) → DataArray → Prop}
    (hW : ∀ v a, MeanOf w v a → W v a) {mem : ι → τE → τ} {MI : ι → τE → τ → Prop} {M : τE → τ → Prop}
    (hmem : ∀ i h y, MI i h y → y = mem i h) (inProps outProps : PropDict) (inst : String) (tid : Bool)
    {callE : τE → σ → EState (ι → DataArray) → Int → τE × σ × EState (ι → DataArray) ×
      Except Err (Dict (ι → DataArray) × EState (ι → DataArray))}
    {call : τ → σ → State → Int → τ × σ × State × Except Err (Dict DataArray × State)} {h : τE} {y : τ} {s : σ}
    {x : EState (ι → DataArray)} {z : State} {dt : Int}
    (hI : ∀ i, MI i (callE h s x dt).1 (call (mem i h) s (memberState i x) dt).1 ∧
      (callE h s x dt).2.1 = (call (mem i h) s (memberState i x) dt).2.1 ∧
      StateRel (fun _ v a => Members v ∧ v i = a) (callE h s x dt).2.2.1 (call (mem i h) s (memberState i x) dt).2.2.1 ∧
      StepRel (fun _ v a => Members v ∧ v i = a) (fun v a => v i = a) (callE h s x dt).2.2.2
        (call (mem i h) s (memberState i x) dt).2.2.2)
    (hC : M (callE h s x dt).1 (call y s z dt).1 ∧ (callE h s x dt).2.1 = (call y s z dt).2.1 ∧
      StateRel (fun _ => MeanOf w) (callE h s x dt).2.2.1 (call y s z dt).2.2.1 ∧
      StepRel (fun _ => MeanOf w) W (callE h s x dt).2.2.2 (call y s z dt).2.2.2) :
    CallsMean w W mem M (fun i => tsCall R inProps outProps inst tid call (mem i h) s (memberState i x) dt)
      (tsCall R inProps outProps inst tid call y s z dt) := by
  obtain ⟨b1, b2, b3, b4⟩ := stepper_over (mean_stand R i0 hw hW) M inProps outProps inst tid s dt hC
  refine ⟨_, _, _, fun i => ?_, b1, b3, b4⟩
  obtain ⟨a1, a2, a3, a4⟩ := stepper_over (member_stand R i0 i) (MI i) inProps outProps inst tid s dt (hI i)
  exact Prod.ext (hmem i _ _ a1) (Prod.ext (a2.symm.trans b2) (Prod.ext (stateRel_member_eq a3) (memberOut_eq a4)))

/-- **C121, AdamsBashforth.** -/
theorem ab_means {σ : Type} (R : Registry) (hw : ∑ i, w i = 1) {W : (ι → DataArray) → DataArray → Prop}
    (hW : ∀ v a, MeanOf w v a → W v a) {p : Prog σ} (hp : KeepsMeans w W p) (inProps outProps : PropDict)
    (inst : String) (tid : Bool) {h : ABOver (ι → DataArray)} {ab : AB} (hh : ABOverRel (fun _ => MeanOf w) h ab) (s : σ)
    {x : EState (ι → DataArray)} {z : State} (hz : MeanState w x z) (dt : Int) :
    CallsMean w W memberAB (ABOverRel fun _ => MeanOf w)
      (fun i => tsCall R inProps outProps inst tid (abCall R p) (memberAB i h) s (memberState i x) dt)
      (tsCall R inProps outProps inst tid (abCall R p) ab s z dt) := by
  obtain ⟨i0⟩ := (nonempty_of_weights hw)
  refine calls_mean R i0 hw hW (MI := fun i => ABOverRel fun _ v a => Members v ∧ v i = a) (fun i h y => memberAB_eq)
    inProps outProps inst tid (callE := abCallO (memberArith R i0) (ensembleProg i0 p)) (fun i => ?_) ?_
  · obtain ⟨a1, a2, a3⟩ := ab_over (member_stand R i0 i) (ensembleProg_member i0 i hp) (memberAB_rel hh) s
      (stateRel_member hz) dt
    exact ⟨a1, a2, stateRel_member hz, a3⟩
  · obtain ⟨a1, a2, a3⟩ := ab_over (mean_stand R i0 hw hW) (ensembleProg_mean i0 hp) hh s hz dt
    exact ⟨a1, a2, hz, a3⟩

/-- **C121, SSPRungeKutta.** -/
theorem ssprk_means {σ : Type} (R : Registry) (hw : ∑ i, w i = 1) {W : (ι → DataArray) → DataArray → Prop}
    (hW : ∀ v a, MeanOf w v a → W v a) {p : Prog σ} (hp : KeepsMeans w W p) (three : Bool) (inProps outProps : PropDict)
    (inst : String) (tid : Bool) {h : ABOver (ι → DataArray)} {ab : AB} (hh : ABOverRel (fun _ => MeanOf w) h ab) (s : σ)
    {x : EState (ι → DataArray)} {z : State} (hz : MeanState w x z) (dt : Int) :
    CallsMean w W memberAB (ABOverRel fun _ => MeanOf w)
      (fun i => tsCall R inProps outProps inst tid (sspCall R p three) (memberAB i h) s (memberState i x) dt)
      (tsCall R inProps outProps inst tid (sspCall R p three) ab s z dt) := by
  obtain ⟨i0⟩ := (nonempty_of_weights hw)
  refine calls_mean R i0 hw hW (MI := fun i => ABOverRel fun _ v a => Members v ∧ v i = a) (fun i h y => memberAB_eq)
    inProps outProps inst tid (callE := sspCallO (memberArith R i0) (ensembleProg i0 p) three) (fun i => ?_) ?_
  · obtain ⟨a1, a2, a3⟩ := ssprk_over (member_stand R i0 i) (ensembleProg_member i0 i hp) three (memberAB_rel hh) s
      (stateRel_member hz) dt
    exact ⟨a1, a2, stateRel_member hz, a3⟩
  · obtain ⟨a1, a2, a3⟩ := ssprk_over (mean_stand R i0 hw hW) (ensembleProg_mean i0 hp) three hh s hz dt
    exact ⟨a1, a2, hz, a3⟩

/-- **C121, Leapfrog.** -/
theorem leapfrog_means {σ : Type} (R : Registry) (hw : ∑ i, w i = 1) {W : (ι → DataArray) → DataArray → Prop}
    (hW : ∀ v a, MeanOf w v a → W v a) {p : Prog σ} (hp : KeepsMeans w W p) (inProps outProps : PropDict)
    (inst : String) (tid : Bool) {h : LFOver (ι → DataArray)} {lf : LF} (hh : LFOverRel (fun _ => MeanOf w) h lf) (s : σ)
    {x : EState (ι → DataArray)} {z : State} (hz : MeanState w x z) (dt : Int) :
    CallsMean w W memberLF (LFOverRel fun _ => MeanOf w)
      (fun i => tsCall R inProps outProps inst tid (LF.call R p) (memberLF i h) s (memberState i x) dt)
      (tsCall R inProps outProps inst tid (LF.call R p) lf s z dt) := by
  obtain ⟨i0⟩ := (nonempty_of_weights hw)
  exact calls_mean R i0 hw hW (MI := fun i => LFOverRel fun _ v a => Members v ∧ v i = a) (fun i h y => memberLF_eq)
    inProps outProps inst tid (callE := LFOver.call (memberArith R i0) (ensembleProg i0 p))
    (fun i => leapfrog_over (member_stand R i0 i) (ensembleProg_member i0 i hp) (memberLF_rel hh) s (stateRel_member hz) dt)
    (leapfrog_over (mean_stand R i0 hw hW) (ensembleProg_mean i0 hp) hh s hz dt)

/-- **C121, whole runs** of any of these steppers. -/
theorem run_means {σ τ τE : Type} {W : (ι → DataArray) → DataArray → Prop} {mem : ι → τE → τ} {M : τE → τ → Prop}
    {call : τ → σ → State → Int → τ × σ × State × Except Err (Dict DataArray × State)} {dt : Int}
    (hcall : ∀ h y s x z, M h y → MeanState w x z →
      CallsMean w W mem M (fun i => call (mem i h) s (memberState i x) dt) (call y s z dt))
    (n : Nat) {h : τE} {y : τ} (s : σ) {x : EState (ι → DataArray)} {z : State} (hM : M h y) (hz : MeanState w x z) :
    RunsMean w mem M (fun i => runSteps call dt n (mem i h) s (memberState i x)) (runSteps call dt n y s z) := by
  induction n generalizing h y s x z with
  | zero => exact .inr ⟨h, s, x, y, z, fun _ => rfl, rfl, hM, hz⟩
  | succ n ih =>
    obtain ⟨h', x', out, h1, h2, h3, h4⟩ := hcall h y s x z hM hz
    unfold runSteps
    simp only [h1]
    revert h1 h2 h3 h4
    generalize call y s z dt = r
    obtain ⟨r1, r2, r3, r4⟩ := r
    intro h1 h2 h3 h4
    simp only at h1 h2 h3 h4
    cases out with
    | error e =>
      cases r4 with
      | ok b => exact h4.elim
      | error f => exact .inl ⟨fun _ => rfl, rfl⟩
    | ok o =>
      cases r4 with
      | error f => exact h4.elim
      | ok b =>
        obtain ⟨od, on⟩ := o
        obtain ⟨bd, bn⟩ := b
        exact ih r2 h2 h4.2

/-! ## Composites -/

omit [Fintype ι] in
theorem memberDict_get? (i : ι) (T : Dict (ι → DataArray)) (k : String) :
    (memberDict i T).get? k = (Dict.get? T k).map (fun v => v i) := Dict.get?_mapVal _ _ _

omit [Fintype ι] in
theorem memberDict_set (i : ι) (T : Dict (ι → DataArray)) (k : String) (v : ι → DataArray) :
    memberDict i (Dict.set T k v) = (memberDict i T).set k (v i) := by
  induction T with
  | nil => rfl
  | cons a l ih =>
    obtain ⟨ka, va⟩ := a
    show memberDict i (Dict.set ((ka, va) :: l) k v) = Dict.set ((ka, va i) :: memberDict i l) k (v i)
    unfold Dict.set
    by_cases h : ka = k
    · simp only [if_pos h]; rfl
    · simp only [if_neg h, ← ih]; rfl

omit [Fintype ι] in
theorem memberDict_update (i : ι) (T U : Dict (ι → DataArray)) :
    memberDict i (Dict.update T U) = (memberDict i T).update (memberDict i U) := by
  unfold Dict.update
  induction U generalizing T with
  | nil => rfl
  | cons a l ih =>
    show memberDict i (List.foldl _ (Dict.set T a.1 a.2) l) = _
    rw [ih, memberDict_set]
    rfl

theorem MeanOf.add_each {v u : ι → DataArray} {a b : DataArray} (h : MeanOf w v a) (h' : MeanOf w u b) (i0 : ι) :
    (∃ e, (∀ i, (v i).add (u i) = .error e) ∧ a.add b = .error e) ∨
    ∃ r q, (∀ i, (v i).add (u i) = .ok (r i)) ∧ a.add b = .ok q ∧ MeanOf w r q := by
  have h1 := h.add (i0 := i0) h'
  rcases liftTwo_members (i0 := i0) (fun a b => sameFrame_respected.add a b) h.members h'.members with
    ⟨e, h2, h3⟩ | ⟨r, h2, h3, h4⟩
  · rw [h2] at h1
    cases h5 : a.add b with
    | ok q => rw [h5] at h1; exact h1.elim
    | error e' => rw [h5] at h1; exact .inl ⟨e, h3, by rw [show e = e' from h1]⟩
  · rw [h2] at h1
    cases h5 : a.add b with
    | error e' => rw [h5] at h1; exact h1.elim
    | ok q => rw [h5] at h1; exact .inr ⟨r, q, h4, rfl, h1⟩

theorem MeanOf.toUnits_each (R : Registry) (hw : ∑ i, w i = 1) {v : ι → DataArray} {a : DataArray} (h : MeanOf w v a) (i0 : ι)
    (u : String) : (∃ e, (∀ i, (v i).toUnits R u = .error e) ∧ a.toUnits R u = .error e) ∨
    ∃ r q, (∀ i, (v i).toUnits R u = .ok (r i)) ∧ a.toUnits R u = .ok q ∧ MeanOf w r q := by
  have h1 := h.toUnits R hw (i0 := i0) u
  rcases liftOne_members (i0 := i0) (fun hab => sameFrame_respected.toUnits (R := R) hab u) h.members with
    ⟨e, h2, h3⟩ | ⟨r, h2, h3, h4⟩
  · rw [h2] at h1
    cases h5 : a.toUnits R u with
    | ok q => rw [h5] at h1; exact h1.elim
    | error e' => rw [h5] at h1; exact .inl ⟨e, h3, by rw [show e = e' from h1]⟩
  · rw [h2] at h1
    cases h5 : a.toUnits R u with
    | error e' => rw [h5] at h1; exact h1.elim
    | ok q => rw [h5] at h1; exact .inr ⟨r, q, h4, rfl, h1⟩

theorem addInto_means (R : Registry) (hw : ∑ i, w i = 1) {D : Dict (ι → DataArray)} {d : Dict DataArray}
    (hD : KeyRel (fun _ => MeanOf w) D d) {T : Dict (ι → DataArray)} {t : Dict DataArray} (hT : KeyRel (fun _ => MeanOf w) T t) :
    (∃ e, (∀ i, addInto R (memberDict i D) (memberDict i T) = .error e) ∧ addInto R d t = .error e) ∨
    ∃ T' t', (∀ i, addInto R (memberDict i D) (memberDict i T) = .ok (memberDict i T')) ∧ addInto R d t = .ok t' ∧
      KeyRel (fun _ => MeanOf w) T' t' := by
  obtain ⟨i0⟩ := nonempty_of_weights hw
  induction hD generalizing T t with
  | nil => exact .inr ⟨T, t, fun _ => rfl, rfl, hT⟩
  | cons hab hl ih =>
    rename_i a b l l'
    obtain ⟨ka, va⟩ := a
    obtain ⟨kb, vb⟩ := b
    obtain ⟨hk, hv⟩ := hab
    simp only at hk hv
    subst hk
    have hm : ∀ i, memberDict i ((ka, va) :: l) = (ka, va i) :: memberDict i l := fun _ => rfl
    simp only [hm]
    unfold addInto
    simp only [memberDict_get?]
    rcases hT.get? ka with ⟨h1, h2⟩ | ⟨u, u', h1, h2, hu⟩
    · simp only [h1, h2, Option.map_none, ← memberDict_set]
      exact ih (hT.set ka hv)
    · simp only [h1, h2, Option.map_some, hu.attrs, hv.attrs]
      cases u'.attrs.get? "units" with
      | none => exact .inl ⟨_, fun _ => rfl, rfl⟩
      | some un =>
        cases vb.attrs.get? "units" with
        | none => exact .inl ⟨_, fun _ => rfl, rfl⟩
        | some un' =>
          dsimp only
          rcases hv.toUnits_each R hw i0 un with ⟨e, g1, g2⟩ | ⟨r, q, g1, g2, g3⟩
          · exact .inl ⟨e, fun i => by rw [g1 i]; rfl, by rw [g2]; rfl⟩
          · simp only [g1, g2, Exc.ok_bind]
            rcases hu.add_each g3 i0 with ⟨e, k1, k2⟩ | ⟨r', q', k1, k2, k3⟩
            · exact .inl ⟨e, fun i => by rw [k1 i]; rfl, by rw [k2]; rfl⟩
            · simp only [k1, k2, Exc.ok_bind, ← memberDict_set]
              exact ih (hT.set ka k3)

theorem compositeLoop_means (R : Registry) (hw : ∑ i, w i = 1) {W : (ι → DataArray) → DataArray → Prop} {σ : Type}
    {cs : List (Comp σ)} (hc : ∀ c ∈ cs, KeepsMeans w W (fun s state dt => implicitCall c state dt s))
    {x : EState (ι → DataArray)} {z : State} (hz : MeanState w x z) (dt : Int) (s : σ)
    {T D : Dict (ι → DataArray)} {t d : Dict DataArray} (hT : KeyRel (fun _ => MeanOf w) T t) (hD : DictRel W D d) :
    let run := fun state t d => compositeLoop R (cs.map fun c => implicitCall c state dt) s t d
    (∀ i, (run (memberState i x) (memberDict i T) (memberDict i D)).1 = (run z t d).1) ∧
    ((∃ e, (∀ i, (run (memberState i x) (memberDict i T) (memberDict i D)).2 = .error e) ∧ (run z t d).2 = .error e) ∨
     ∃ T' D' t' d', (∀ i, (run (memberState i x) (memberDict i T) (memberDict i D)).2 = .ok (memberDict i T', memberDict i D')) ∧
       (run z t d).2 = .ok (t', d') ∧ KeyRel (fun _ => MeanOf w) T' t' ∧ DictRel W D' d') := by
  induction cs generalizing s T D t d with
  | nil => exact ⟨fun _ => rfl, .inr ⟨T, D, t, d, fun _ => rfl, rfl, hT, hD⟩⟩
  | cons c cs ih =>
    obtain ⟨h1, h2⟩ := hc c List.mem_cons_self s x z dt hz
    intro run
    simp only [run, List.map_cons]
    clear run
    unfold compositeLoop
    rcases h2 with ⟨e, h2, h3⟩ | ⟨T1, D1, t1, d1, h2, h3, h4, h5⟩
    · simp only [h1, h2, h3]
      exact ⟨fun _ => trivial, .inl ⟨e, fun _ => rfl, rfl⟩⟩
    · simp only [h1, h2, h3]
      rcases addInto_means R hw h4 hT with ⟨e, g1, g2⟩ | ⟨T2, t2, g1, g2, g3⟩
      · simp only [g1, g2]
        exact ⟨fun _ => trivial, .inl ⟨e, fun _ => rfl, rfl⟩⟩
      · simp only [g1, g2, ← memberDict_update]
        exact ih (fun c hc' => hc c (List.mem_cons_of_mem _ hc')) _ g3 (hD.update h5)

/-- **C121, composites.**  A composite of components that turn means into means does so too. -/
theorem composite_means (R : Registry) (hw : ∑ i, w i = 1) {W : (ι → DataArray) → DataArray → Prop} {σ : Type}
    {cs : List (Comp σ)} (hc : ∀ c ∈ cs, KeepsMeans w W (fun s state dt => implicitCall c state dt s)) :
    KeepsMeans w W (fun s state dt => callImplicitComposite R cs s state dt) := by
  intro s x z dt hz
  exact compositeLoop_means R hw hc hz dt s List.Forall₂.nil List.Forall₂.nil

/-- **C121, runs of new steppers** whose composite `cs` consists of components that turn means into
means: the run of the mean state ends with the mean of the states with which the runs of the members end,
or all of them end with an exception. -/
theorem runs_of_mean {σ : Type} (R : Registry) (hw : ∑ i, w i = 1) {cs : List (Comp σ)}
    (hc : ∀ c ∈ cs, KeepsMeans w (fun _ _ => True) (fun s state dt => implicitCall c state dt s))
    (inProps outProps : PropDict) (inst : String) (tid : Bool) (dt : Int) (n : Nat) (s : σ)
    {x : EState (ι → DataArray)} {z : State} (hz : MeanState w x z) :
    let p : Prog σ := fun s state dt => callImplicitComposite R cs s state dt
    (∀ order, RunsMean w memberAB (ABOverRel fun _ => MeanOf w)
      (fun i => runSteps (tsCall R inProps outProps inst tid (abCall R p)) dt n { order := order } s (memberState i x))
      (runSteps (tsCall R inProps outProps inst tid (abCall R p)) dt n { order := order } s z)) ∧
    (∀ three, RunsMean w memberAB (ABOverRel fun _ => MeanOf w)
      (fun i => runSteps (tsCall R inProps outProps inst tid (sspCall R p three)) dt n { order := 1 } s (memberState i x))
      (runSteps (tsCall R inProps outProps inst tid (sspCall R p three)) dt n { order := 1 } s z)) ∧
    ∀ strength alpha, RunsMean w memberLF (LFOverRel fun _ => MeanOf w)
      (fun i => runSteps (tsCall R inProps outProps inst tid (LF.call R p)) dt n { strength := strength, alpha := alpha } s
        (memberState i x))
      (runSteps (tsCall R inProps outProps inst tid (LF.call R p)) dt n { strength := strength, alpha := alpha } s z) := by
  intro p
  have hp : KeepsMeans w (fun _ _ => True) p := composite_means R hw hc
  refine ⟨fun order => ?_, fun three => ?_, fun strength alpha => ?_⟩
  · exact run_means (fun h y s x z hM hz => ab_means R hw (fun _ _ _ => trivial) hp inProps outProps inst tid hM s hz dt) n s
      (h := { order := order }) ⟨rfl, rfl, .nil⟩ hz
  · exact run_means (fun h y s x z hM hz => ssprk_means R hw (fun _ _ _ => trivial) hp three inProps outProps inst tid hM s hz dt) n s
      (h := { order := 1 }) ⟨rfl, rfl, .nil⟩ hz
  · exact run_means (fun h y s x z hM hz => leapfrog_means R hw (fun _ _ _ => trivial) hp inProps outProps inst tid hM s hz dt) n s
      (h := { strength := strength, alpha := alpha }) ⟨rfl, rfl, rfl, trivial⟩ hz

/-- A component whose tendency of a quantity is the function `f` of every element. -/
def pointProg (name units : String) (f : Rat → Rat) : Prog Unit := fun s state _ =>
  (s, State.da state name >>= fun a => .ok ([(name, { a with arr := a.arr.map f, attrs := [("units", units)] })], []))

/-- Components that apply an affine function to every element turn means into means. -/
theorem pointProg_keeps (hw : ∑ i, w i = 1) (W : (ι → DataArray) → DataArray → Prop) (name units : String) (k b : Rat) :
    KeepsMeans w W (pointProg name units fun x => k * x + b) := by
  intro s x z dt hz
  refine ⟨fun _ => rfl, ?_⟩
  unfold pointProg
  dsimp only
  have hget : ∀ i, State.da (memberState i x) name = match Dict.get? x name with
      | some (.da v) => .ok (v i)
      | some (.time _) => .error .attributeError
      | none => .error .keyError := by
    intro i
    unfold State.da memberState
    rw [Dict.get?_mapVal]
    cases Dict.get? x name with
    | none => rfl
    | some e => cases e <;> rfl
  simp only [hget]
  rcases KeyRel.get? hz name with ⟨h1, h2⟩ | ⟨v, v', h1, h2, hv⟩
  · refine .inl ⟨.keyError, fun i => ?_, ?_⟩
    · rw [h1]; rfl
    · unfold State.da; rw [h2]; rfl
  · cases v with
    | time t =>
      cases v' with
      | da a => exact hv.elim
      | time t' =>
        refine .inl ⟨.attributeError, fun i => ?_, ?_⟩
        · rw [h1]; rfl
        · unfold State.da; rw [h2]; rfl
    | da v =>
      cases v' with
      | time t => exact hv.elim
      | da a =>
        have hv : MeanOf w v a := hv
        refine .inr ⟨[(name, fun i => { v i with arr := (v i).arr.map (fun x => k * x + b), attrs := [("units", units)] })], [],
          [(name, { a with arr := a.arr.map (fun x => k * x + b), attrs := [("units", units)] })], [], fun i => ?_, ?_, ?_, .nil⟩
        · rw [h1]; rfl
        · unfold State.da; rw [h2]; rfl
        · refine .cons ⟨rfl, hv.map (fun y => ?_) _⟩ .nil
          have : ∀ i, w i * (k * y i + b) = k * (w i * y i) + w i * b := fun i => by ring
          rw [Finset.sum_congr rfl fun i _ => this i, Finset.sum_add_distrib, ← Finset.mul_sum, ← Finset.sum_mul, hw, one_mul]

end

namespace Demo

/-- Two members that differ by 60 K, with weights 3/4 and 1/4. -/
def duo : EState (Bool → DataArray) :=
  [("time", .time 0), ("T", .da fun i => if i then { temp with arr := temp.arr.map (· + 60) } else temp)]

def duoWeights : Bool → Rat := fun i => if i then 1 / 4 else 3 / 4

/-- Their mean is 15 K warmer than the first. -/
def duoMean : State := [("time", .time 0), ("T", .da { temp with arr := temp.arr.map (· + 15) })]

theorem duo_mean : MeanState duoWeights duo duoMean := by
  refine .cons ⟨rfl, rfl⟩ (.cons ⟨rfl, temp_wf, ?_, ?_, ?_, ?_⟩ .nil)
  · intro i; cases i <;> rfl
  · intro i; cases i <;> rfl
  · intro i; cases i <;> rfl
  · intro ix _
    rw [Fintype.sum_bool]
    show temp.at' ix + 15 = 1 / 4 * (temp.at' ix + 60) + 3 / 4 * temp.at' ix
    ring

/-- C121: an ensemble with its mean, and a relaxation to 300 K with its runs; with a tendency that is not
affine (here the square) the mean of the runs is another one than the run of the mean. -/
example : MeanState duoWeights duo duoMean ∧ ∑ i, duoWeights i = 1 ∧
    KeepsMeans duoWeights (MeanOf duoWeights) (pointProg "T" "K s^-1" fun x => -1 / 10 * x + 30) ∧
    (let run := fun f st => finalT cell (runSteps (tsCall reg warmProps warmProps "S" false
        (abCall reg (pointProg "T" "K s^-1" f))) 1000000 2 { order := 2 } () st)
     (match run (fun x => -1 / 10 * x + 30) (memberState false duo), run (fun x => -1 / 10 * x + 30) (memberState true duo),
        run (fun x => -1 / 10 * x + 30) duoMean with
      | some x, some y, some z => decide (z = 3 / 4 * x + 1 / 4 * y ∧ x ≠ y)
      | _, _, _ => false) = true ∧
     (match run (fun x => x * x / 100) (memberState false duo), run (fun x => x * x / 100) (memberState true duo),
        run (fun x => x * x / 100) duoMean with
      | some x, some y, some z => decide (z ≠ 3 / 4 * x + 1 / 4 * y)
      | _, _, _ => false) = true) := by
  refine ⟨duo_mean, by rw [Fintype.sum_bool]; show (1 : Rat) / 4 + 3 / 4 = 1; norm_num,
    pointProg_keeps (by rw [Fintype.sum_bool]; show (1 : Rat) / 4 + 3 / 4 = 1; norm_num) _ _ _ _ _, ?_, ?_⟩
  · decide +kernel
  · decide +kernel

end Demo

end Verif

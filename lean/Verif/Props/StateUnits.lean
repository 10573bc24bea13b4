import Verif.Props.TendencyUnits
import Verif.Spec.StateUnits
/-!
# C69: time stepping and the units of the state
-/

namespace Verif

variable {σ : Type}

/-! ## Affine relation of arrays -/

/-- `w` is `c * v + o`. -/
def Aff (c o : Rat) (v w : DataArray) : Prop :=
  w.dims = v.dims ∧ w.arr.shape = v.arr.shape ∧ ∀ idx, w.arr.get idx = c * v.arr.get idx + o

theorem Aff.congr {c o o' : Rat} {v w : DataArray} (h : Aff c o v w) (e : o = o') : Aff c o' v w := e ▸ h

theorem Aff.at' {c o : Rat} {v w : DataArray} (h : Aff c o v w) (ix : String → Nat) : w.at' ix = c * v.at' ix + o := by
  unfold DataArray.at'
  rw [h.1]; exact h.2.2 _

theorem Aff.len {c o : Rat} {v w : DataArray} (h : Aff c o v w) (d : String) : w.len d = v.len d := by
  unfold DataArray.len
  rw [h.1, h.2.1]

theorem Aff.eq {v w : DataArray} (h : Aff 1 0 v w) (ha : v.attrs = w.attrs) : v = w := by
  obtain ⟨hd, hs, hg⟩ := h
  cases v with
  | mk d a at1 =>
    cases w with
    | mk d' a' at2 =>
      cases a with
      | mk sh g =>
        cases a' with
        | mk sh' g' =>
          simp only at hd hs hg ha
          have : g' = g := by funext i; rw [hg]; ring
          rw [hd, hs, ha, this]

theorem Aff.smul {c o : Rat} {v w : DataArray} (h : Aff c o v w) (r : Rat) : Aff c (r * o) (v.smul r) (w.smul r) := by
  refine ⟨h.1, h.2.1, ?_⟩
  intro idx
  show r * w.arr.get idx = c * (r * v.arr.get idx) + r * o
  rw [h.2.2]; ring

theorem Aff.add {c o o' : Rat} {a a' b b' : DataArray} (h : Aff c o a a') (h' : Aff c o' b b') :
    Exc.Rel (fun r r' => Aff c (o + o') r r' ∧ r.attrs = a.attrs ∧ r'.attrs = a'.attrs) (a.add b) (a'.add b') := by
  unfold DataArray.add DataArray.binop
  simp only [h.1, h'.1, h.len, h'.len]
  split
  · refine ⟨⟨rfl, rfl, ?_⟩, rfl, rfl⟩
    intro idx
    show a'.at' _ + b'.at' _ = c * (a.at' _ + b.at' _) + (o + o')
    rw [h.at', h'.at']; ring
  · rfl

theorem Aff.sub {c o o' : Rat} {a a' b b' : DataArray} (h : Aff c o a a') (h' : Aff c o' b b') :
    Exc.Rel (fun r r' => Aff c (o - o') r r' ∧ r.attrs = a.attrs ∧ r'.attrs = a'.attrs) (a.sub b) (a'.sub b') := by
  unfold DataArray.sub DataArray.binop
  simp only [h.1, h'.1, h.len, h'.len]
  split
  · refine ⟨⟨rfl, rfl, ?_⟩, rfl, rfl⟩
    intro idx
    show a'.at' _ - b'.at' _ = c * (a.at' _ - b.at' _) + (o - o')
    rw [h.at', h'.at']; ring
  · rfl

theorem Aff.iadd {c o o' : Rat} {a a' b b' : DataArray} (h : Aff c o a a') (h' : Aff c o' b b') :
    Exc.Rel (fun r r' => Aff c (o + o') r r' ∧ r.attrs = a.attrs ∧ r'.attrs = a'.attrs) (a.iadd b) (a'.iadd b') := by
  unfold DataArray.iadd
  rw [h.1, h'.1]
  split
  · exact h.add h'
  · rfl

theorem Exc.Rel.bind {α β γ δ : Type} {P : α → β → Prop} {Q : γ → δ → Prop} {x : Except Err α} {y : Except Err β}
    {f : α → Except Err γ} {g : β → Except Err δ} (h : Exc.Rel P x y) (hfg : ∀ a b, P a b → Exc.Rel Q (f a) (g b)) :
    Exc.Rel Q (x >>= f) (y >>= g) := by
  cases x with
  | error e => cases y with
    | error f => exact h
    | ok b => exact h.elim
  | ok a => cases y with
    | error f => exact h.elim
    | ok b => exact hfg a b h

/-! ## The change of one quantity -/

/-- Factor and offset between the values of a quantity. -/
def coef (R : Registry) : Option (String × String) → Rat × Rat
  | none => (1, 0)
  | some (u, w) =>
    match R.parse u, R.parse w with
    | some a, some b => (a.scale / b.scale, (a.offset - b.offset) / b.scale)
    | _, _ => (1, 0)

/-- Units of the quantity in the two states. -/
def UnitsRel (c : Option (String × String)) (x y : Dict String) : Prop :=
  match c with
  | none => x = y
  | some (u, w) => x.get? "units" = some u ∧ y.get? "units" = some w

/-- Quantities of the two states, scaled by `k`. -/
def QRel (R : Registry) (c : Option (String × String)) (k : Rat) (a b : DataArray) : Prop :=
  Aff (coef R c).1 (k * (coef R c).2) a b ∧ UnitsRel c a.attrs b.attrs

def VRel (R : Registry) (c : Option (String × String)) (k : Rat) : Val → Val → Prop
  | .time t, .time t' => t = t'
  | .da a, .da b => QRel R c k a b
  | _, _ => False

def StRel (R : Registry) (ch : UnitChange) (k : Rat) (s s' : State) : Prop :=
  List.Forall₂ (fun a b => a.1 = b.1 ∧ VRel R (ch a.1) k a.2 b.2) s s'

theorem samePhysical_iff {R : Registry} {u w : String} (h : RatePair R u w) (x y : Rat) :
    SamePhysical R u x w y ↔ y = (coef R (some (u, w))).1 * x + (coef R (some (u, w))).2 := by
  obtain ⟨a, b, _, _, ha, hb, hd, _⟩ := h
  have hpos := b.scale_pos
  have hne : b.scale ≠ 0 := ne_of_gt hpos
  simp only [coef, ha, hb]
  constructor
  · rintro ⟨a', b', ha', hb', _, e⟩
    rw [ha] at ha'; rw [hb] at hb'
    cases ha'; cases hb'
    field_simp
    linarith
  · intro e
    refine ⟨a, b, ha, hb, hd, ?_⟩
    rw [e]
    field_simp
    ring

theorem sameInUnits_iff {R : Registry} {c : Option (String × String)} (h : ∀ u w, c = some (u, w) → RatePair R u w)
    (a b : DataArray) : SameInUnits R c a b ↔ QRel R c 1 a b := by
  cases c with
  | none =>
    constructor
    · intro e
      have e : a = b := e
      subst e
      refine ⟨⟨rfl, rfl, fun idx => ?_⟩, rfl⟩
      show _ = 1 * _ + 1 * 0
      ring
    · rintro ⟨h1, h2⟩
      exact (h1.congr (o' := 0) (by show 1 * (0 : ℚ) = 0; ring)).eq h2
  | some p =>
    obtain ⟨u, w⟩ := p
    have hp := h u w rfl
    constructor
    · rintro ⟨hd, hs, hu, hw, hv⟩
      refine ⟨⟨hd.symm, hs.symm, fun idx => ?_⟩, hu, hw⟩
      rw [one_mul]
      exact (samePhysical_iff hp _ _).1 (hv idx)
    · rintro ⟨⟨hd, hs, hv⟩, hu, hw⟩
      refine ⟨hd.symm, hs.symm, hu, hw, fun idx => (samePhysical_iff hp _ _).2 ?_⟩
      have := hv idx
      rwa [one_mul] at this

theorem sameState_iff {R : Registry} {ch : UnitChange} (h : ch.Ok R) (s s' : State) :
    SameState R ch s s' ↔ StRel R ch 1 s s' := by
  have key : ∀ (q : String) (v v' : Val), SameEntry R (ch q) v v' ↔ VRel R (ch q) 1 v v' := by
    intro q v v'
    cases v <;> cases v'
    · exact sameInUnits_iff (h q) _ _
    · exact Iff.rfl
    · exact Iff.rfl
    · exact Iff.rfl
  unfold SameState StRel
  constructor
  · exact fun h => h.imp fun a b hab => ⟨hab.1, (key _ _ _).1 hab.2⟩
  · exact fun h => h.imp fun a b hab => ⟨hab.1, (key _ _ _).2 hab.2⟩

/-! ## States -/

theorem StRel.keys {R : Registry} {ch : UnitChange} {k : Rat} {s s' : State} (h : StRel R ch k s s') :
    Dict.keys s' = Dict.keys s := by
  induction h with
  | nil => rfl
  | cons hab _ ih => rw [Dict.keys_cons, Dict.keys_cons, ih, hab.1]

theorem StRel.get? {R : Registry} {ch : UnitChange} {k : Rat} {s s' : State} (h : StRel R ch k s s') (q : String) :
    (Dict.get? s q = none ∧ Dict.get? s' q = none) ∨
    ∃ v v', Dict.get? s q = some v ∧ Dict.get? s' q = some v' ∧ VRel R (ch q) k v v' := by
  induction h with
  | nil => exact Or.inl ⟨rfl, rfl⟩
  | cons hab _ ih =>
    rename_i a b l l' _
    obtain ⟨ka, va⟩ := a
    obtain ⟨kb, vb⟩ := b
    obtain ⟨hk, hv⟩ := hab
    simp only at hk hv
    subst hk
    rw [Dict.get?_cons, Dict.get?_cons]
    by_cases e : ka = q
    · subst e
      rw [if_pos rfl, if_pos rfl]
      exact Or.inr ⟨va, vb, rfl, rfl, hv⟩
    · rw [if_neg e, if_neg e]; exact ih

theorem StRel.da {R : Registry} {ch : UnitChange} {k : Rat} {s s' : State} (h : StRel R ch k s s') (q : String) :
    Exc.Rel (QRel R (ch q) k) (State.da s q) (State.da s' q) := by
  unfold State.da
  rcases h.get? q with ⟨h1, h2⟩ | ⟨v, v', h1, h2, hv⟩
  · rw [h1, h2]; rfl
  · rw [h1, h2]
    cases v <;> cases v'
    · exact hv
    · exact hv.elim
    · exact hv.elim
    · rfl

theorem StRel.set {R : Registry} {ch : UnitChange} {k : Rat} {s s' : State} (h : StRel R ch k s s') {q : String}
    {v v' : Val} (hv : VRel R (ch q) k v v') : StRel R ch k (Dict.set s q v) (Dict.set s' q v') := by
  induction h with
  | nil => exact List.Forall₂.cons ⟨rfl, hv⟩ List.Forall₂.nil
  | cons hab hl ih =>
    rename_i a b l l'
    obtain ⟨ka, va⟩ := a
    obtain ⟨kb, vb⟩ := b
    obtain ⟨hk, hv'⟩ := hab
    simp only at hk hv'
    subst hk
    unfold Dict.set
    by_cases e : ka = q
    · subst e
      simp only [if_true]
      exact List.Forall₂.cons ⟨rfl, hv⟩ hl
    · simp only [if_neg e]
      exact List.Forall₂.cons ⟨rfl, hv'⟩ ih

theorem StRel.copyUntouched {R : Registry} {ch : UnitChange} {k : Rat} {s s' new new' : State} (h : StRel R ch k s s')
    (hn : StRel R ch k new new') : StRel R ch k (copyUntouched s new) (copyUntouched s' new') := by
  induction h generalizing new new' with
  | nil => exact hn
  | cons hab hl ih =>
    rename_i a b l l'
    obtain ⟨ka, va⟩ := a
    obtain ⟨kb, vb⟩ := b
    obtain ⟨hk, hv'⟩ := hab
    simp only at hk hv'
    subst hk
    unfold Verif.copyUntouched
    rw [hn.keys]
    split
    · exact ih hn
    · exact ih (hn.set hv')

/-! ## Tendencies in the units of the state -/

/-- Tendencies after conversion. -/
def TRel (R : Registry) (ch : UnitChange) (t t' : Dict DataArray) : Prop :=
  List.Forall₂ (fun a b => a.1 = b.1 ∧ Aff (coef R (ch a.1)).1 0 a.2 b.2) t t'

theorem TRel.keys {R : Registry} {ch : UnitChange} {t t' : Dict DataArray} (h : TRel R ch t t') :
    Dict.keys t' = Dict.keys t := by
  induction h with
  | nil => rfl
  | cons hab _ ih => rw [Dict.keys_cons, Dict.keys_cons, ih, hab.1]

theorem TRel.get {R : Registry} {ch : UnitChange} {t t' : Dict DataArray} (h : TRel R ch t t') (q : String) :
    Exc.Rel (Aff (coef R (ch q)).1 0) (t.get q) (t'.get q) := by
  unfold Dict.get
  induction h with
  | nil => exact rfl
  | cons hab _ ih =>
    rename_i a b l l' _
    obtain ⟨ka, va⟩ := a
    obtain ⟨kb, vb⟩ := b
    obtain ⟨hk, hv⟩ := hab
    simp only at hk hv
    subst hk
    rw [Dict.get?_cons, Dict.get?_cons]
    by_cases e : ka = q
    · subst e
      rw [if_pos rfl, if_pos rfl]
      exact hv
    · rw [if_neg e, if_neg e]; exact ih

theorem toUnits_error {R : Registry} {v : DataArray} {own units : String} {a b : PintUnit}
    (hu : v.attrs.get? "units" = some own) (ha : R.parse own = some a) (hb : R.parse units = some b)
    (hd : a.dim ≠ b.dim) : v.toUnits R units = .error .valueError := by
  unfold DataArray.toUnits DataArray.dataArrayToUnits
  simp only [hu, Registry.unit, ha, hb, Exc.ok_bind]
  have hs : a.sameQty b = false := by simp [PintUnit.sameQty, hd]
  rw [hs]
  simp [hd]

theorem toUnits_rates {R : Registry} (hF : R.Faithful) {v w : DataArray} (h : SamePhysicalRate R v w) {u x : String}
    (hp : RatePair R u x) :
    Exc.Rel (Aff (coef R (some (u, x))).1 0) (v.toUnits R (u ++ " s^-1")) (w.toUnits R (x ++ " s^-1")) := by
  obtain ⟨hd, hs, y, z, hy, hz, hv⟩ := h
  obtain ⟨a, b, a', b', ha, hb, _, ha', hb', hdim', hsa, hsb, hoa, hob⟩ := hp
  obtain ⟨cy, cz, hcy, hcz, hcd, _⟩ := hv []
  by_cases hdim : cy.dim = a'.dim
  · obtain ⟨r, hr⟩ := toUnits_isOk hy hcy ha' hdim
    obtain ⟨r', hr'⟩ := toUnits_isOk hz hcz hb' (hcd.symm.trans (hdim.trans hdim'))
    rw [hr, hr']
    obtain ⟨y1, hy1, d1, s1, p1, _⟩ := toUnits_ok hF hr
    obtain ⟨z1, hz1, d2, s2, p2, _⟩ := toUnits_ok hF hr'
    rw [hy] at hy1; cases hy1
    rw [hz] at hz1; cases hz1
    refine ⟨by rw [d1, d2, hd], by rw [s1, s2, hs], fun idx => ?_⟩
    obtain ⟨e1, f1, he1, hf1, _, q1⟩ := p1 idx
    obtain ⟨e2, f2, he2, hf2, _, q2⟩ := p2 idx
    obtain ⟨g1, g2, hg1, hg2, _, q3⟩ := hv idx
    rw [ha'] at he1; cases he1
    rw [hb'] at he2; cases he2
    rw [hg1] at hf1; cases hf1
    rw [hg2] at hf2; cases hf2
    have hpos := b.scale_pos
    have hne : b.scale ≠ 0 := ne_of_gt hpos
    simp only [coef, ha, hb]
    rw [hsa, hoa] at q1
    rw [hsb, hob] at q2
    field_simp
    linarith
  · rw [toUnits_error hy hcy ha' hdim, toUnits_error hz hcz hb' (fun e => hdim (hcd.trans (e.trans hdim'.symm)))]
    rfl

theorem convertTendency_rel {R : Registry} (hF : R.Faithful) {ch : UnitChange} (hch : ch.Ok R) {s s' : State}
    (h : StRel R ch 1 s s') (q : String) {v w : DataArray} (hv : SamePhysicalRate R v w) :
    Exc.Rel (Aff (coef R (ch q)).1 0) (convertTendency R s q v) (convertTendency R s' q w) := by
  unfold convertTendency
  obtain ⟨hd, hs, y, z, hy, hz, hph⟩ := hv
  rw [hy, hz]
  simp only
  refine (h.da q).bind ?_
  intro a b hab
  obtain ⟨_, hu⟩ := hab
  cases hc : ch q with
  | none =>
    rw [hc] at hu
    have hu : a.attrs = b.attrs := hu
    rw [hu]
    cases b.attrs.get "units" with
    | error e => exact rfl
    | ok u =>
      rw [Exc.ok_bind, Exc.ok_bind]
      have := toUnits_same hF (v := v) (w := w) (Or.inr ⟨hd, hs, y, z, hy, hz, hph⟩) (u ++ " s^-1")
      revert this
      cases v.toUnits R (u ++ " s^-1") <;> cases w.toUnits R (u ++ " s^-1")
      · exact id
      · exact id
      · exact id
      · rename_i r r'
        intro e
        have e : r.bare = r'.bare := e
        have e1 : r.bare.dims = r'.bare.dims := by rw [e]
        have e2 : r.bare.arr = r'.bare.arr := by rw [e]
        have e2 : r.arr = r'.arr := e2
        refine ⟨e1.symm, by rw [e2], fun idx => ?_⟩
        show _ = 1 * _ + 0
        rw [e2]; ring
  | some p =>
    obtain ⟨u, x⟩ := p
    rw [hc] at hu
    obtain ⟨h1, h2⟩ := hu
    rw [Dict.get_eq_ok.2 h1, Dict.get_eq_ok.2 h2, Exc.ok_bind, Exc.ok_bind]
    exact toUnits_rates hF ⟨hd, hs, y, z, hy, hz, hph⟩ (hch q u x hc)

theorem convertTendencies_rel {R : Registry} (hF : R.Faithful) {ch : UnitChange} (hch : ch.Ok R) {s s' : State}
    (h : StRel R ch 1 s s') {t t' : Dict DataArray}
    (ht : List.Forall₂ (fun a b => a.1 = b.1 ∧ SamePhysicalRate R a.2 b.2) t t') :
    Exc.Rel (TRel R ch) (convertTendencies R s t) (convertTendencies R s' t') := by
  induction ht with
  | nil => exact List.Forall₂.nil
  | cons hab _ ih =>
    rename_i a b l l' _
    obtain ⟨ka, va⟩ := a
    obtain ⟨kb, vb⟩ := b
    obtain ⟨hk, hv⟩ := hab
    simp only at hk hv
    subst hk
    unfold convertTendencies
    refine (convertTendency_rel hF hch h ka hv).bind fun x x' hx => ih.bind fun y y' hy => ?_
    exact List.Forall₂.cons ⟨rfl, hx⟩ hy

/-! ## One step -/

theorem stepKeys_rel {R : Registry} {ch : UnitChange} {f g : String → Except Err DataArray} (ks : List String)
    (h : ∀ k, Exc.Rel (QRel R (ch k) 1) (f k) (g k)) : Exc.Rel (StRel R ch 1) (stepKeys f ks) (stepKeys g ks) := by
  induction ks with
  | nil => exact List.Forall₂.nil
  | cons k ks ih =>
    unfold stepKeys
    exact (h k).bind fun a b hab => ih.bind fun y y' hy => List.Forall₂.cons ⟨rfl, hab⟩ hy

theorem qrel_add {R : Registry} {c : Option (String × String)} {k : Rat} {x x' d d' : DataArray}
    (hx : QRel R c k x x') (hd : Aff (coef R c).1 0 d d') (r : Rat) :
    Exc.Rel (QRel R c k) (x.add (d.smul r)) (x'.add (d'.smul r)) := by
  have := hx.1.add (hd.smul r)
  revert this
  cases x.add (d.smul r) <;> cases x'.add (d'.smul r)
  · exact id
  · exact id
  · exact id
  · rintro ⟨h1, h2, h3⟩
    refine ⟨h1.congr (by ring), ?_⟩
    rw [h2, h3]; exact hx.2

theorem aff_sub0 {c r r' : Rat} {v v' w w' : DataArray} (hv : Aff c 0 v v') (hw : Aff c 0 w w') :
    Exc.Rel (Aff c 0) ((v.smul r).sub (w.smul r')) ((v'.smul r).sub (w'.smul r')) := by
  have := (hv.smul r).sub (hw.smul r')
  revert this
  cases (v.smul r).sub (w.smul r') <;> cases (v'.smul r).sub (w'.smul r')
  · exact id
  · exact id
  · exact id
  · rintro ⟨h1, _⟩; exact h1.congr (by ring)

theorem aff_add1 {c r : Rat} {v v' w w' : DataArray} (hv : Aff c 0 v v') (hw : Aff c 0 w w') :
    Exc.Rel (Aff c 0) (v.add (w.smul r)) (v'.add (w'.smul r)) := by
  have := hv.add (hw.smul r)
  revert this
  cases v.add (w.smul r) <;> cases v'.add (w'.smul r)
  · exact id
  · exact id
  · exact id
  · rintro ⟨h1, _⟩; exact h1.congr (by ring)

theorem aff_sub1 {c r : Rat} {v v' w w' : DataArray} (hv : Aff c 0 v v') (hw : Aff c 0 w w') :
    Exc.Rel (Aff c 0) (v.sub (w.smul r)) (v'.sub (w'.smul r)) := by
  have := hv.sub (hw.smul r)
  revert this
  cases v.sub (w.smul r) <;> cases v'.sub (w'.smul r)
  · exact id
  · exact id
  · exact id
  · rintro ⟨h1, _⟩; exact h1.congr (by ring)

theorem stepEuler_rel {R : Registry} {ch : UnitChange} {s s' : State} (h : StRel R ch 1 s s') {t t' : Dict DataArray}
    (ht : TRel R ch t t') (dt : Int) : Exc.Rel (StRel R ch 1) (stepEuler s t dt) (stepEuler s' t' dt) := by
  unfold stepEuler
  rw [ht.keys]
  exact stepKeys_rel _ fun k => (h.da k).bind fun x x' hx => (ht.get k).bind fun v v' hv => qrel_add hx hv _

theorem performStep_rel {R : Registry} {ch : UnitChange} {s s' : State} (h : StRel R ch 1 s s')
    {hist hist' : List (Dict DataArray)} (hh : List.Forall₂ (TRel R ch) hist hist') (order : Nat) (dt : Int) :
    Exc.Rel (StRel R ch 1) (performStep order hist s dt) (performStep order hist' s' dt) := by
  unfold performStep
  have hr := List.rel_reverse hh
  rw [← hh.length_eq]
  generalize min order hist.length = m
  revert hr
  generalize hist.reverse = rev
  generalize hist'.reverse = rev'
  intro hr
  cases hh with
  | nil => exact rfl
  | cons h0 _ =>
    cases hr with
    | nil => exact rfl
    | cons h1 hp =>
      simp only
      rcases m with _ | _ | _ | _ | _ | m
      · exact rfl
      · exact stepEuler_rel h h1 dt
      · cases hp with
        | nil => exact rfl
        | cons h2 hp =>
          unfold secondBashforth
          rw [h0.keys]
          exact stepKeys_rel _ fun k => (h.da k).bind fun x x' hx => (h1.get k).bind fun v v' hv =>
            (h2.get k).bind fun v2 v2' hv2 => (aff_sub0 hv hv2).bind fun d d' hd => qrel_add hx hd _
      · cases hp with
        | nil => exact rfl
        | cons h2 hp => cases hp with
          | nil => exact rfl
          | cons h3 hp =>
            unfold thirdBashforth
            rw [h0.keys]
            exact stepKeys_rel _ fun k => (h.da k).bind fun x x' hx => (h1.get k).bind fun v v' hv =>
              (h2.get k).bind fun v2 v2' hv2 => (aff_sub0 hv hv2).bind fun d d' hd =>
              (h3.get k).bind fun v3 v3' hv3 => (aff_add1 hd hv3).bind fun d d' hd => qrel_add hx hd _
      · cases hp with
        | nil => exact rfl
        | cons h2 hp => cases hp with
          | nil => exact rfl
          | cons h3 hp => cases hp with
            | nil => exact rfl
            | cons h4 hp =>
              unfold fourthBashforth
              rw [h0.keys]
              exact stepKeys_rel _ fun k => (h.da k).bind fun x x' hx => (h1.get k).bind fun v v' hv =>
                (h2.get k).bind fun v2 v2' hv2 => (aff_sub0 hv hv2).bind fun d d' hd =>
                (h3.get k).bind fun v3 v3' hv3 => (aff_add1 hd hv3).bind fun d d' hd =>
                (h4.get k).bind fun v4 v4' hv4 => (aff_sub1 hd hv4).bind fun d d' hd => qrel_add hx hd _
      · exact rfl

/-! ## Adams-Bashforth -/

/-- Two AdamsBashforth with the same rates in their histories. -/
def ABRel (R : Registry) (ch : UnitChange) (a b : AB) : Prop :=
  a.order = b.order ∧ a.timestep = b.timestep ∧ List.Forall₂ (TRel R ch) a.hist b.hist

/-- The same diagnostics and the same physical state. -/
def SameResult (R : Registry) (ch : UnitChange) (r r' : Dict DataArray × State) : Prop :=
  r.1 = r'.1 ∧ SameState R ch r.2 r'.2

theorem ab_call_rel {R : Registry} (hF : R.Faithful) {ch : UnitChange} (hch : ch.Ok R) {p : Prog σ}
    (hp : UnitBlind R ch p) {a b : AB} (hab : ABRel R ch a b) (s : σ) {state state' : State}
    (hst : SameState R ch state state') (dt : Int) :
    ABRel R ch (AB.call R p a s state dt).1 (AB.call R p b s state' dt).1 ∧
    (AB.call R p a s state dt).2.1 = (AB.call R p b s state' dt).2.1 ∧
    Exc.Rel (SameResult R ch) (AB.call R p a s state dt).2.2 (AB.call R p b s state' dt).2.2 := by
  obtain ⟨ho, ht, hh⟩ := hab
  obtain ⟨hw, hr⟩ := hp s state state' dt hst
  have hs := (sameState_iff hch _ _).1 hst
  unfold AB.call
  rw [← ht]
  split
  · simp only
    revert hr
    cases (p s state dt).2 <;> cases (p s state' dt).2
    · intro hr; exact ⟨⟨ho, rfl, hh⟩, hw, hr⟩
    · intro hr; exact hr.elim
    · intro hr; exact hr.elim
    · rename_i r r'
      intro hr
      obtain ⟨hdiag, hts⟩ := hr
      have hc := convertTendencies_rel hF hch hs hts
      revert hc
      simp only
      cases convertTendencies R state r.1 <;> cases convertTendencies R state' r'.1
      · intro hc; exact ⟨⟨ho, rfl, hh⟩, hw, hc⟩
      · intro hc; exact hc.elim
      · intro hc; exact hc.elim
      · rename_i t t'
        intro hc
        have hc : TRel R ch t t' := hc
        have hh' : List.Forall₂ (TRel R ch) (a.hist ++ [t]) (b.hist ++ [t']) :=
          List.rel_append hh (List.Forall₂.cons hc List.Forall₂.nil)
        have hstep := performStep_rel hs hh' a.order dt
        simp only
        rw [← ho, ← hh'.length_eq]
        revert hstep
        cases performStep a.order (a.hist ++ [t]) state dt <;> cases performStep a.order (b.hist ++ [t']) state' dt
        · intro h; exact ⟨⟨rfl, rfl, hh'⟩, hw, h⟩
        · intro h; exact h.elim
        · intro h; exact h.elim
        · rename_i new new'
          intro h
          have h : StRel R ch 1 new new' := h
          refine ⟨?_, hw, hdiag, (sameState_iff hch _ _).2 (hs.copyUntouched h)⟩
          simp only
          split
          · refine ⟨rfl, rfl, ?_⟩
            simp only
            revert hh'
            cases a.hist ++ [t] <;> cases b.hist ++ [t']
            · exact id
            · intro h; cases h
            · intro h; cases h
            · intro h; cases h; assumption
          · exact ⟨rfl, rfl, hh'⟩
  · exact ⟨⟨ho, ht, hh⟩, rfl, rfl⟩

/-- C69 (AdamsBashforth).  If every call is given the same physical state, in the units
`u` throughout or in the units `w` throughout, then every call returns the same physical
state, for any order, history, timesteps and errors.
Missing from the full claim: the units of a quantity must not change between calls
(`ab_units_mixed`). -/
theorem ab_state_units_partial (R : Registry) (hF : R.Faithful) (ch : UnitChange) (hch : ch.Ok R) (p : Prog σ)
    (hp : UnitBlind R ch p) (order : Nat) (s : σ) (calls calls' : List (State × Int))
    (h : List.Forall₂ (fun a b => SameState R ch a.1 b.1 ∧ a.2 = b.2) calls calls') :
    List.Forall₂ (fun r r' => Exc.Rel (SameResult R ch) r.res r'.res)
      (abTrace R p { order := order } s calls) (abTrace R p { order := order } s calls') := by
  have gen : ∀ (a b : AB) (s : σ), ABRel R ch a b →
      List.Forall₂ (fun r r' => Exc.Rel (SameResult R ch) r.res r'.res)
        (abTrace R p a s calls) (abTrace R p b s calls') := by
    induction h with
    | nil => intro a b s _; exact List.Forall₂.nil
    | cons hab _ ih =>
      intro a b s hr
      rename_i c c' _ _ _
      obtain ⟨st, dt⟩ := c
      obtain ⟨st', dt'⟩ := c'
      obtain ⟨h1, h2⟩ := hab
      simp only at h1 h2
      subst h2
      obtain ⟨k1, k2, k3⟩ := ab_call_rel hF hch hp hr s h1 dt
      rw [abTrace, abTrace]
      refine List.Forall₂.cons k3 ?_
      rw [← k2]
      exact ih _ _ _ k1
  exact gen _ _ _ ⟨rfl, rfl, List.Forall₂.nil⟩

/-! ## Leapfrog -/

theorem leapfrogEntry_rel {R : Registry} {c : Option (String × String)} {o o' x x' v v' : DataArray}
    (ho : QRel R c 1 o o') (hx : QRel R c 1 x x') (hv : Aff (coef R c).1 0 v v') (ν α : Rat) (dt : Int) :
    Exc.Rel (fun r r' => QRel R c 1 r.1 r'.1 ∧ Exc.Rel (QRel R c 1) r.2 r'.2)
      (leapfrogEntry ν α o x v dt) (leapfrogEntry ν α o' x' v' dt) := by
  unfold leapfrogEntry
  refine ((ho.1.add ((hv.smul 2).smul (seconds dt)))).bind ?_
  rintro n n' ⟨hn, hna, hna'⟩
  refine (ho.1.sub (hx.1.smul 2)).bind ?_
  rintro d d' ⟨hd, _⟩
  refine (hd.add hn).bind ?_
  rintro e e' ⟨he, _⟩
  have hf : Aff (coef R c).1 0 (e.smul (1 / 2 * ν)) (e'.smul (1 / 2 * ν)) := (he.smul (1 / 2 * ν)).congr (by ring)
  refine (hx.1.iadd (hf.smul α)).bind ?_
  rintro y y' ⟨hy, hya, hya'⟩
  refine ⟨⟨hy.congr (by ring), by rw [hya, hya']; exact hx.2⟩, ?_⟩
  simp only
  split
  · have := hn.iadd (hf.smul (α - 1))
    revert this
    cases n.iadd ((e.smul (1 / 2 * ν)).smul (α - 1)) <;> cases n'.iadd ((e'.smul (1 / 2 * ν)).smul (α - 1))
    · exact id
    · exact id
    · exact id
    · rintro ⟨h1, h2, h3⟩
      exact ⟨h1.congr (by ring), by rw [h2, h3, hna, hna']; exact ho.2⟩
  · exact ⟨hn.congr (by ring), by rw [hna, hna']; exact ho.2⟩

theorem stepLeapfrog_rel {R : Registry} {ch : UnitChange} {old old' : State} (hold : StRel R ch 1 old old')
    {t t' : Dict DataArray} (ht : TRel R ch t t') (ν α : Rat) (dt : Int) (ks : List String) :
    ∀ {state state' new new' : State}, StRel R ch 1 state state' → StRel R ch 1 new new' →
      StRel R ch 1 (stepLeapfrog ν α old t dt ks state new).1 (stepLeapfrog ν α old' t' dt ks state' new').1 ∧
      Exc.Rel (StRel R ch 1) (stepLeapfrog ν α old t dt ks state new).2 (stepLeapfrog ν α old' t' dt ks state' new').2 := by
  induction ks with
  | nil => intro state state' new new' hs hn; exact ⟨hs, hn⟩
  | cons k ks ih =>
    intro state state' new new' hs hn
    unfold stepLeapfrog
    have key := (hold.da k).bind fun o o' ho => (hs.da k).bind fun x x' hx => (ht.get k).bind fun v v' hv =>
      leapfrogEntry_rel ho hx hv ν α dt
    revert key
    cases (State.da old k >>= fun o => State.da state k >>= fun x => t.get k >>= fun v =>
        leapfrogEntry ν α o x v dt) <;>
      cases (State.da old' k >>= fun o => State.da state' k >>= fun x => t'.get k >>= fun v =>
        leapfrogEntry ν α o x v dt)
    · intro h; exact ⟨hs, h⟩
    · intro h; exact h.elim
    · intro h; exact h.elim
    · rename_i r r'
      rintro ⟨h1, h2⟩
      obtain ⟨a, b⟩ := r
      obtain ⟨a', b'⟩ := r'
      simp only at h1 h2
      have hset : StRel R ch 1 (Dict.set state k (.da a)) (Dict.set state' k (.da a')) := hs.set (q := k) h1
      cases b <;> cases b'
      · exact ⟨hset, h2⟩
      · exact h2.elim
      · exact h2.elim
      · exact ih hset (hn.set (q := k) h2)

/-- Two Leapfrogs that remember the same physical state. -/
def LFRel (R : Registry) (ch : UnitChange) (a b : LF) : Prop :=
  a.strength = b.strength ∧ a.alpha = b.alpha ∧ a.timestep = b.timestep ∧
    match a.old, b.old with
    | none, none => True
    | some o, some o' => SameState R ch o o'
    | _, _ => False

/-- C69 (Leapfrog), for one call, and by `LFRel` for whole histories: the remembered
state, the filtered state left with the caller and the new state are physically the same. -/
theorem lf_state_units_partial (R : Registry) (hF : R.Faithful) (ch : UnitChange) (hch : ch.Ok R) (p : Prog σ)
    (hp : UnitBlind R ch p) (a b : LF) (hab : LFRel R ch a b) (s : σ) (state state' : State)
    (hst : SameState R ch state state') (dt : Int) :
    LFRel R ch (LF.call R p a s state dt).1 (LF.call R p b s state' dt).1 ∧
    (LF.call R p a s state dt).2.1 = (LF.call R p b s state' dt).2.1 ∧
    SameState R ch (LF.call R p a s state dt).2.2.1 (LF.call R p b s state' dt).2.2.1 ∧
    Exc.Rel (SameResult R ch) (LF.call R p a s state dt).2.2.2 (LF.call R p b s state' dt).2.2.2 := by
  obtain ⟨ν, α, tm, old⟩ := a
  obtain ⟨ν', α', tm', old'⟩ := b
  obtain ⟨hν, hα, htm, hold⟩ := hab
  simp only at hν hα htm hold
  subst hν hα htm
  obtain ⟨hw, hr⟩ := hp s state state' dt hst
  have hs := (sameState_iff hch _ _).1 hst
  unfold LF.call
  split
  · simp only
    revert hr
    cases (p s state dt).2 <;> cases (p s state' dt).2
    · intro hr; exact ⟨⟨rfl, rfl, rfl, hold⟩, hw, hst, hr⟩
    · intro hr; exact hr.elim
    · intro hr; exact hr.elim
    · rename_i r r'
      intro hr
      obtain ⟨hdiag, hts⟩ := hr
      have hc := convertTendencies_rel hF hch hs hts
      revert hc
      simp only
      cases convertTendencies R state r.1 <;> cases convertTendencies R state' r'.1
      · intro hc; exact ⟨⟨rfl, rfl, rfl, hold⟩, hw, hst, hc⟩
      · intro hc; exact hc.elim
      · intro hc; exact hc.elim
      · rename_i t t'
        intro hc
        have hc : TRel R ch t t' := hc
        simp only
        cases old <;> cases old'
        · simp only
          have he := stepEuler_rel hs hc dt
          revert he
          cases stepEuler state t dt <;> cases stepEuler state' t' dt
          · intro he; exact ⟨⟨rfl, rfl, rfl, trivial⟩, hw, hst, he⟩
          · intro he; exact he.elim
          · intro he; exact he.elim
          · intro he
            exact ⟨⟨rfl, rfl, rfl, hst⟩, hw, hst, hdiag, (sameState_iff hch _ _).2 (hs.copyUntouched he)⟩
        · exact hold.elim
        · exact hold.elim
        · rename_i o _ o'
          have hold : SameState R ch o o' := hold
          simp only
          obtain ⟨k1, k2⟩ := stepLeapfrog_rel ((sameState_iff hch _ _).1 hold) hc ν α dt
            (Dict.keys t) hs (new := []) (new' := []) List.Forall₂.nil
          rw [hc.keys]
          have k1' := (sameState_iff hch _ _).2 k1
          revert k2
          cases (stepLeapfrog ν α o t dt (Dict.keys t) state []).2 <;>
            cases (stepLeapfrog ν α o' t' dt (Dict.keys t) state' []).2
          · intro k2; exact ⟨⟨rfl, rfl, rfl, hold⟩, hw, k1', k2⟩
          · intro k2; exact k2.elim
          · intro k2; exact k2.elim
          · intro k2
            exact ⟨⟨rfl, rfl, rfl, k1'⟩, hw, k1', hdiag, (sameState_iff hch _ _).2 (k1.copyUntouched k2)⟩
  · exact ⟨⟨rfl, rfl, rfl, hold⟩, rfl, hst, rfl⟩

/-! ## SSPRungeKutta -/

theorem eulerCall_rel {R : Registry} (hF : R.Faithful) {ch : UnitChange} (hch : ch.Ok R) {p : Prog σ}
    (hp : UnitBlind R ch p) {a b : AB} (hab : ABRel R ch a b) (s : σ) {state state' : State}
    (hst : SameState R ch state state') (dt : Int) :
    ∃ a' b' s' r r', ABRel R ch a' b' ∧ Exc.Rel (SameResult R ch) r r' ∧
      eulerCall R p a s state dt = (a', s', r) ∧ eulerCall R p b s state' dt = (b', s', r') := by
  obtain ⟨h1, h2, h3⟩ := ab_call_rel hF hch hp hab s hst dt
  refine ⟨_, _, _, (eulerCall R p a s state dt).2.2, (eulerCall R p b s state' dt).2.2, h1, ?_, rfl,
    Prod.ext rfl (Prod.ext h2.symm rfl)⟩
  refine h3.bind ?_
  rintro r r' ⟨hd, hs⟩
  exact ⟨hd, (sameState_iff hch _ _).2
    (((sameState_iff hch _ _).1 hst).copyUntouched ((sameState_iff hch _ _).1 hs))⟩

theorem StRel.timeEntry {R : Registry} {ch : UnitChange} {k : Rat} (hT : ch "time" = none) {s s' : State}
    (h : StRel R ch k s s') (k' : Rat) : StRel R ch k' (timeEntry s) (timeEntry s') := by
  unfold Verif.timeEntry
  rcases h.get? "time" with ⟨h1, h2⟩ | ⟨v, v', h1, h2, hv⟩
  · rw [h1, h2]; exact List.Forall₂.nil
  · rw [h1, h2]
    refine List.Forall₂.cons ⟨rfl, ?_⟩ List.Forall₂.nil
    cases v <;> cases v'
    · rw [hT] at hv ⊢
      obtain ⟨g1, g2⟩ := hv
      exact ⟨g1.congr (by show k * (0 : ℚ) = k' * 0; ring), g2⟩
    · exact hv.elim
    · exact hv.elim
    · exact hv

theorem addStates_rel {R : Registry} {ch : UnitChange} (hT : ch "time" = none) {k k' : Rat} {s s' t t' : State}
    (h : StRel R ch k s s') (h' : StRel R ch k' t t') :
    Exc.Rel (StRel R ch (k + k')) (addStates s t) (addStates s' t') := by
  unfold addStates
  have gen : ∀ {l l' out out' : State}, StRel R ch k l l' → StRel R ch (k + k') out out' →
      Exc.Rel (StRel R ch (k + k')) (addStatesLoop t l out) (addStatesLoop t' l' out') := by
    intro l l' out out' hl
    induction hl generalizing out out' with
    | nil => intro ho; exact ho
    | cons hab _ ih =>
      intro ho
      rename_i a b l l' _
      obtain ⟨ka, va⟩ := a
      obtain ⟨kb, vb⟩ := b
      obtain ⟨hk, hv⟩ := hab
      simp only at hk hv
      subst hk
      unfold addStatesLoop
      split
      · exact ih ho
      · cases va <;> cases vb
        · rename_i a b
          refine (h'.da ka).bind fun x x' hx => (hv.1.add hx.1).bind ?_
          rintro r r' ⟨hr, _, _⟩
          refine ih (ho.set (q := ka) ⟨hr.congr (by ring), hv.2⟩)
        · exact hv.elim
        · exact hv.elim
        · rfl
  exact gen h (h.timeEntry hT _)

theorem scaleState_rel {R : Registry} {ch : UnitChange} (hT : ch "time" = none) {k : Rat} (c : Rat) {s s' : State}
    (h : StRel R ch k s s') : Exc.Rel (StRel R ch (c * k)) (scaleState c s) (scaleState c s') := by
  unfold scaleState
  have gen : ∀ {l l' out out' : State}, StRel R ch k l l' → StRel R ch (c * k) out out' →
      Exc.Rel (StRel R ch (c * k)) (scaleStateLoop c l out) (scaleStateLoop c l' out') := by
    intro l l' out out' hl
    induction hl generalizing out out' with
    | nil => intro ho; exact ho
    | cons hab _ ih =>
      intro ho
      rename_i a b l l' _
      obtain ⟨ka, va⟩ := a
      obtain ⟨kb, vb⟩ := b
      obtain ⟨hk, hv⟩ := hab
      simp only at hk hv
      subst hk
      unfold scaleStateLoop
      split
      · exact ih ho
      · cases va <;> cases vb
        · exact ih (ho.set (q := ka) ⟨(hv.1.smul c).congr (by ring), hv.2⟩)
        · exact hv.elim
        · exact hv.elim
        · rfl
  exact gen h (h.timeEntry hT _)

theorem StRel.congr {R : Registry} {ch : UnitChange} {k k' : Rat} {s s' : State} (h : StRel R ch k s s') (e : k = k') :
    StRel R ch k' s s' := e ▸ h

/-- C69 (SSPRungeKutta): a step of either scheme gives the same physical state, whatever
the units.  As the stepper keeps nothing between successful steps (`ssprk_keeps_nothing`),
the units may change from step to step. -/
theorem ssprk_state_units (R : Registry) (hF : R.Faithful) (ch : UnitChange) (hch : ch.Ok R) (hT : ch "time" = none)
    (p : Prog σ) (hp : UnitBlind R ch p) (three : Bool) (a b : AB) (hab : ABRel R ch a b) (s : σ)
    (state state' : State) (hst : SameState R ch state state') (dt : Int) :
    ABRel R ch (ssprkCall R p three a s state dt).1 (ssprkCall R p three b s state' dt).1 ∧
    (ssprkCall R p three a s state dt).2.1 = (ssprkCall R p three b s state' dt).2.1 ∧
    Exc.Rel (SameResult R ch) (ssprkCall R p three a s state dt).2.2 (ssprkCall R p three b s state' dt).2.2 := by
  have hs := (sameState_iff hch _ _).1 hst
  unfold ssprkCall
  cases three with
  | true =>
    simp only [if_true]
    unfold ssprk3
    obtain ⟨a1, b1, s1, r1, q1, hab1, hr1, e1, f1⟩ := eulerCall_rel hF hch hp hab s hst dt
    rw [e1, f1]
    cases r1 <;> cases q1
    · exact ⟨hab1, rfl, hr1⟩
    · exact hr1.elim
    · exact hr1.elim
    rename_i r1 q1
    obtain ⟨d1, st1⟩ := r1
    obtain ⟨d1', st1'⟩ := q1
    obtain ⟨hd1, hst1⟩ := hr1
    simp only at hd1 hst1 ⊢
    obtain ⟨a2, b2, s2, r2, q2, hab2, hr2, e2, f2⟩ := eulerCall_rel hF hch hp hab1 s1 hst1 dt
    rw [e2, f2]
    cases r2 <;> cases q2
    · exact ⟨hab2, rfl, hr2⟩
    · exact hr2.elim
    · exact hr2.elim
    rename_i r2 q2
    obtain ⟨d2, st2⟩ := r2
    obtain ⟨d2', st2'⟩ := q2
    obtain ⟨_, hst2⟩ := hr2
    simp only at hst2 ⊢
    have hmid := (scaleState_rel hT (3 / 4) hs).bind fun x x' hx =>
      (scaleState_rel hT (1 / 4) ((sameState_iff hch _ _).1 hst2)).bind fun y y' hy => addStates_rel hT hx hy
    revert hmid
    cases (scaleState (3 / 4) state >>= fun x => scaleState (1 / 4) st2 >>= fun y => addStates x y) <;>
      cases (scaleState (3 / 4) state' >>= fun x => scaleState (1 / 4) st2' >>= fun y => addStates x y)
    · intro h; exact ⟨hab2, rfl, h⟩
    · intro h; exact h.elim
    · intro h; exact h.elim
    rename_i m m'
    intro h
    have hm : SameState R ch m m' := (sameState_iff hch _ _).2 (StRel.congr h (by norm_num))
    simp only
    obtain ⟨a3, b3, s3, r3, q3, hab3, hr3, e3, f3⟩ := eulerCall_rel hF hch hp hab2 s2 hm dt
    rw [e3, f3]
    cases r3 <;> cases q3
    · exact ⟨hab3, rfl, hr3⟩
    · exact hr3.elim
    · exact hr3.elim
    rename_i r3 q3
    obtain ⟨d3, st3⟩ := r3
    obtain ⟨d3', st3'⟩ := q3
    obtain ⟨_, hst3⟩ := hr3
    simp only at hst3 ⊢
    refine ⟨hab3, trivial, ?_⟩
    refine (scaleState_rel hT (1 / 3) hs).bind fun x x' hx =>
      (scaleState_rel hT (2 / 3) ((sameState_iff hch _ _).1 hst3)).bind fun y y' hy =>
      (addStates_rel hT hx hy).bind fun z z' hz => ?_
    exact ⟨hd1, (sameState_iff hch _ _).2 (hz.congr (by norm_num))⟩
  | false =>
    simp only [Bool.false_eq_true, if_false]
    unfold ssprk2
    obtain ⟨a1, b1, s1, r1, q1, hab1, hr1, e1, f1⟩ := eulerCall_rel hF hch hp hab s hst dt
    rw [e1, f1]
    cases r1 <;> cases q1
    · exact ⟨hab1, rfl, hr1⟩
    · exact hr1.elim
    · exact hr1.elim
    rename_i r1 q1
    obtain ⟨d1, st1⟩ := r1
    obtain ⟨d1', st1'⟩ := q1
    obtain ⟨hd1, hst1⟩ := hr1
    simp only at hd1 hst1 ⊢
    obtain ⟨a2, b2, s2, r2, q2, hab2, hr2, e2, f2⟩ := eulerCall_rel hF hch hp hab1 s1 hst1 dt
    rw [e2, f2]
    cases r2 <;> cases q2
    · exact ⟨hab2, rfl, hr2⟩
    · exact hr2.elim
    · exact hr2.elim
    rename_i r2 q2
    obtain ⟨d2, st2⟩ := r2
    obtain ⟨d2', st2'⟩ := q2
    obtain ⟨_, hst2⟩ := hr2
    simp only at hst2 ⊢
    refine ⟨hab2, trivial, ?_⟩
    refine (addStates_rel hT hs ((sameState_iff hch _ _).1 hst2)).bind fun x x' hx =>
      (scaleState_rel hT (1 / 2) hx).bind fun z z' hz => ?_
    exact ⟨hd1, (sameState_iff hch _ _).2 (hz.congr (by norm_num))⟩

theorem ssprk_keeps_nothing (R : Registry) (p : Prog σ) (three : Bool) (ab : AB) (h1 : ab.order = 1)
    (h0 : ab.hist = []) (s : σ) (state : State) (dt : Int) (r : Dict DataArray × State)
    (h : (ssprkCall R p three ab s state dt).2.2 = .ok r) :
    (ssprkCall R p three ab s state dt).1.order = 1 ∧ (ssprkCall R p three ab s state dt).1.hist = [] := by
  have key : ∀ (a a' : AB) (s s' : σ) (st : State) (r : Dict DataArray × State), a.order = 1 → a.hist = [] →
      eulerCall R p a s st dt = (a', s', .ok r) → a'.order = 1 ∧ a'.hist = [] := by
    intro a a' s s' st r ho hh he
    unfold eulerCall at he
    simp only [Prod.mk.injEq] at he
    obtain ⟨rfl, _, he⟩ := he
    obtain ⟨o, hok, _⟩ := Exc.bind_ok_iff.1 he
    revert hok
    cases ab_outcome R p a s st dt with
    | rejected hts hc ht => rw [hc]; intro hok; cases hok
    | early e hts hc ht => rw [hc]; intro hok; cases hok
    | late t e hts ht hp hc => rw [hc]; intro hok; cases hok
    | done t r new' hts hr hconv ht hp hc => rw [hc]; intro _; simp [hh, ho]
  unfold ssprkCall at h ⊢
  cases three with
  | true =>
    simp only [if_true] at h ⊢
    unfold ssprk3 at h ⊢
    split at h
    · cases h
    · rename_i e1
      obtain ⟨i1, i2⟩ := key _ _ _ _ _ _ h1 h0 e1
      split at h
      · cases h
      · rename_i e2
        obtain ⟨i1, i2⟩ := key _ _ _ _ _ _ i1 i2 e2
        split at h
        · cases h
        · split at h
          · cases h
          · rename_i e4
            exact key _ _ _ _ _ _ i1 i2 e4
  | false =>
    simp only [Bool.false_eq_true, if_false] at h ⊢
    unfold ssprk2 at h ⊢
    split at h
    · cases h
    · rename_i e1
      obtain ⟨i1, i2⟩ := key _ _ _ _ _ _ h1 h0 e1
      split at h
      · cases h
      · rename_i e2
        exact key _ _ _ _ _ _ i1 i2 e2

/-! ## Units that change between calls -/

/-- `h` in m or km. -/
def Demo.hIn (u : String) (x : Rat) : State :=
  [("h", .da { dims := ["z"], arr := ⟨[2], fun _ => x⟩, attrs := [("units", u)] }), ("time", .time 0)]

/-- Components that lift `h` by one km every second, whatever the state. -/
def Demo.lift : Prog Nat := fun n _ _ =>
  (n + 1, .ok ([("h", { dims := ["z"], arr := ⟨[2], fun _ => 1000⟩, attrs := [("units", "m s^-1")] })], []))

def Demo.mToKm : UnitChange := fun q => if q = "h" then some ("m", "km") else none

theorem Demo.ratePair : RatePair Demo.reg "m" "km" :=
  ⟨_, _, _, _, rfl, rfl, rfl, rfl, rfl, rfl, rfl, rfl, rfl, rfl⟩

theorem Demo.mToKm_ok : Demo.mToKm.Ok Demo.reg := by
  intro q u w h
  unfold Demo.mToKm at h
  split at h
  · cases h; exact Demo.ratePair
  · cases h

theorem Demo.lift_blind (ch : UnitChange) : UnitBlind Demo.reg ch Demo.lift := by
  intro s state state' dt _
  refine ⟨rfl, rfl, List.Forall₂.cons ⟨rfl, rfl, rfl, _, _, rfl, rfl, ?_⟩ List.Forall₂.nil⟩
  intro idx
  exact ⟨_, _, rfl, rfl, rfl, rfl⟩

theorem Demo.hIn_same (x : Rat) : SameState Demo.reg Demo.mToKm (Demo.hIn "m" (1000 * x)) (Demo.hIn "km" x) := by
  refine List.Forall₂.cons ⟨rfl, rfl, rfl, rfl, rfl, ?_⟩ (List.Forall₂.cons ⟨rfl, rfl⟩ List.Forall₂.nil)
  intro idx
  refine ⟨_, _, rfl, rfl, rfl, ?_⟩
  show 1000 * x * 1 + 0 = x * 1000 + 0
  ring

/-- Value of `h` and its units. -/
def Demo.hOf (r : Except Err (Dict DataArray × State)) : Option (Rat × Dict String) :=
  match r with
  | .ok r => match Dict.get? r.2 "h" with
    | some (.da a) => some (a.at' (fun _ => 0), a.attrs)
    | _ => none
  | .error _ => none

/-- The full claim fails for AdamsBashforth of order two: given the second state in km
instead of m, it lifts `h` from 2 km to -496.5 km instead of 3 km. -/
theorem ab_units_mixed :
    (∀ ch, UnitBlind Demo.reg ch Demo.lift) ∧
    SameState Demo.reg Demo.mToKm (Demo.hIn "m" (1000 * 2)) (Demo.hIn "km" 2) ∧
    (abTrace Demo.reg Demo.lift { order := 2 } 0 [(Demo.hIn "m" 1000, 10 ^ 6), (Demo.hIn "m" (1000 * 2), 10 ^ 6)]).map
      (fun r => Demo.hOf r.res) = [some (2000, [("units", "m")]), some (3000, [("units", "m")])] ∧
    (abTrace Demo.reg Demo.lift { order := 2 } 0 [(Demo.hIn "m" 1000, 10 ^ 6), (Demo.hIn "km" 2, 10 ^ 6)]).map
      (fun r => Demo.hOf r.res) = [some (2000, [("units", "m")]), some (-993 / 2, [("units", "km")])] :=
  ⟨Demo.lift_blind, Demo.hIn_same 2, by decide +kernel, by decide +kernel⟩

/-- So it does for Leapfrog, here without filter: 1002 m instead of 3000 m. -/
theorem lf_units_mixed :
    Demo.hOf (LF.call Demo.reg Demo.lift { strength := 0, timestep := some (10 ^ 6), old := some (Demo.hIn "m" 1000) } 1
      (Demo.hIn "m" (1000 * 2)) (10 ^ 6)).2.2.2 = some (3000, [("units", "m")]) ∧
    Demo.hOf (LF.call Demo.reg Demo.lift { strength := 0, timestep := some (10 ^ 6), old := some (Demo.hIn "m" 1000) } 1
      (Demo.hIn "km" 2) (10 ^ 6)).2.2.2 = some (1002, [("units", "m")]) := by
  constructor <;> decide +kernel

/-- Two calls in m and the same in km give the same heights. -/
example : List.Forall₂ (fun r r' => Exc.Rel (SameResult Demo.reg Demo.mToKm) r.res r'.res)
    (abTrace Demo.reg Demo.lift { order := 2 } 0 [(Demo.hIn "m" (1000 * 1), 10 ^ 6), (Demo.hIn "m" (1000 * 2), 10 ^ 6)])
    (abTrace Demo.reg Demo.lift { order := 2 } 0 [(Demo.hIn "km" 1, 10 ^ 6), (Demo.hIn "km" 2, 10 ^ 6)]) :=
  ab_state_units_partial _ Demo.reg_faithful _ Demo.mToKm_ok _ (Demo.lift_blind _) _ _ _ _
    (List.Forall₂.cons ⟨Demo.hIn_same 1, rfl⟩ (List.Forall₂.cons ⟨Demo.hIn_same 2, rfl⟩ List.Forall₂.nil))

example : (abTrace Demo.reg Demo.lift { order := 2 } 0 [(Demo.hIn "km" 1, 10 ^ 6), (Demo.hIn "km" 2, 10 ^ 6)]).map
      (fun r => Demo.hOf r.res) = [some (2, [("units", "km")]), some (3, [("units", "km")])] := by
  decide +kernel

example : Exc.Rel (SameResult Demo.reg Demo.mToKm)
    (LF.call Demo.reg Demo.lift { old := some (Demo.hIn "m" (1000 * 1)) } 1 (Demo.hIn "m" (1000 * 2)) (10 ^ 6)).2.2.2
    (LF.call Demo.reg Demo.lift { old := some (Demo.hIn "km" 1) } 1 (Demo.hIn "km" 2) (10 ^ 6)).2.2.2 :=
  (lf_state_units_partial _ Demo.reg_faithful _ Demo.mToKm_ok _ (Demo.lift_blind _)
    { old := some (Demo.hIn "m" (1000 * 1)) } { old := some (Demo.hIn "km" 1) }
    ⟨rfl, rfl, rfl, Demo.hIn_same 1⟩ _ _ _ (Demo.hIn_same 2) _).2.2.2

example : Demo.hOf (LF.call Demo.reg Demo.lift { old := some (Demo.hIn "km" 1) } 1 (Demo.hIn "km" 2) (10 ^ 6)).2.2.2 =
    some (3, [("units", "km")]) := by
  decide +kernel

example : Exc.Rel (SameResult Demo.reg Demo.mToKm)
    (ssprkCall Demo.reg Demo.lift true { order := 1 } 0 (Demo.hIn "m" (1000 * 2)) (10 ^ 6)).2.2
    (ssprkCall Demo.reg Demo.lift true { order := 1 } 0 (Demo.hIn "km" 2) (10 ^ 6)).2.2 ∧
    Demo.hOf (ssprkCall Demo.reg Demo.lift true { order := 1 } 0 (Demo.hIn "km" 2) (10 ^ 6)).2.2 =
      some (3, [("units", "km")]) :=
  ⟨(ssprk_state_units _ Demo.reg_faithful _ Demo.mToKm_ok rfl _ (Demo.lift_blind _) _ _ _ ⟨rfl, rfl, List.Forall₂.nil⟩ _ _ _
    (Demo.hIn_same 2) _).2.2, by decide +kernel⟩

end Verif

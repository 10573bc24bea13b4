import Verif.Props.UpdateStages
import Verif.Props.UpdateLeapfrog
import Verif.Model.Elements
import Verif.Lemmas.Composite
import Verif.Props.Budgets
/-! # Runs with components that are updated at different frequencies: property C128 -/

namespace Verif

/-- Component `i` of a composite, in its own UpdateFrequencyWrapper: it uses and changes memory `i`
(wrappers.py:`UpdateFrequencyWrapper.__call__`, one `_cached_output` and `_last_update_time` per object). -/
def updatingSlot {σ V ι : Type} [DecidableEq ι] (implicit : ι → Bool) (p : ι → ProgOver σ V) (i : ι) :
    ProgOver (σ × (ι → UFW (Dict V × Dict V))) V := fun s x dt =>
  (((updatingO (implicit i) (p i) (s.1, s.2 i) x dt).1.1,
    Function.update s.2 i (updatingO (implicit i) (p i) (s.1, s.2 i) x dt).1.2),
   (updatingO (implicit i) (p i) (s.1, s.2 i) x dt).2)

private theorem cons_self {α : Type} (k : String) (v : α) (d : Dict α) : Dict.get? ((k, v) :: d) k = some v := by
  rw [Dict.get?_cons, if_pos rfl]

private theorem cons_ne {α : Type} (v : α) (d : Dict α) {k q : String} (h : ¬ k = q) :
    Dict.get? ((k, v) :: d) q = Dict.get? d q := by
  rw [Dict.get?_cons, if_neg h]

/-- Tendencies of known units without offset. -/
def RateUnits (R : Registry) (t : Dict DataArray) : Prop :=
  ∀ q a, Dict.get? t q = some a → ∃ own v, Dict.get? a.attrs "units" = some own ∧ R.parse own = some v ∧ v.offset = 0

/-- What is converted to the units of the state: 0 if there is no such tendency or it cannot be converted. -/
def cval (R : Registry) (x : EState DataArray) (t : Dict DataArray) (q : String) (ix : String → Nat) : Rat :=
  match Dict.get? t q with
  | some v =>
    match convertTendencyO (dataArrayArith R) x q v with
    | .ok z => z.at' ix
    | .error _ => 0
  | none => 0

/-- Every tendency can be converted to the units of the state. -/
def Converts (R : Registry) (x : EState DataArray) (t : Dict DataArray) : Prop :=
  ∀ q v, Dict.get? t q = some v → ∃ z, convertTendencyO (dataArrayArith R) x q v = .ok z

theorem converts_of_ok {R : Registry} {x : EState DataArray} {t t' : Dict DataArray}
    (h : convertTendenciesO (dataArrayArith R) x t = .ok t') :
    Converts R x t ∧ ∀ q ix, tval t' q ix = cval R x t q ix := by
  induction t generalizing t' with
  | nil =>
    unfold convertTendenciesO at h
    cases h
    exact ⟨fun q v hv => (by cases hv), fun q ix => rfl⟩
  | cons kv rest ih =>
    obtain ⟨k, v⟩ := kv
    unfold convertTendenciesO at h
    obtain ⟨v', hv, h⟩ := Exc.bind_ok_iff.1 h
    obtain ⟨rest', hr, h⟩ := Exc.bind_ok_iff.1 h
    cases h
    obtain ⟨h1, h2⟩ := ih hr
    constructor
    · intro q w hw
      by_cases hq : k = q
      · subst hq
        rw [cons_self] at hw
        cases hw
        exact ⟨_, hv⟩
      · rw [cons_ne _ _ hq] at hw
        exact h1 q w hw
    · intro q ix
      by_cases hq : k = q
      · subst hq
        unfold tval cval
        rw [cons_self, cons_self]
        dsimp only
        rw [hv]
      · have := h2 q ix
        unfold tval cval at this ⊢
        rw [cons_ne _ _ hq, cons_ne _ _ hq]
        exact this

theorem ok_of_converts {R : Registry} {x : EState DataArray} {t : Dict DataArray} (hn : (Dict.keys t).Nodup)
    (h : Converts R x t) : ∃ t', convertTendenciesO (dataArrayArith R) x t = .ok t' := by
  induction t with
  | nil => exact ⟨[], rfl⟩
  | cons kv rest ih =>
    obtain ⟨k, v⟩ := kv
    have hn' : (k :: Dict.keys rest).Nodup := hn
    rw [List.nodup_cons] at hn'
    obtain ⟨z, hz⟩ := h k v (cons_self _ _ _)
    obtain ⟨t', ht⟩ := ih hn'.2 (fun q w hw => h q w (by
      rw [cons_ne _ _ (fun hq => hn'.1 (by rw [hq]; exact Dict.mem_keys_of_get? hw))]
      exact hw))
    refine ⟨(k, z) :: t', ?_⟩
    unfold convertTendenciesO
    rw [hz, Exc.ok_bind, ht, Exc.ok_bind]

/-- Sums are converted like their terms. -/
theorem convertTendencyO_add {R : Registry} (hR : R.Faithful) (hs : ∀ un b, R.parse (un ++ " s^-1") = some b → b.offset = 0)
    {x : EState DataArray} {q : String} {w v v' r z : DataArray} {uw uv : String} {a c : PintUnit}
    (hw : Dict.get? w.attrs "units" = some uw) (ha : R.parse uw = some a) (ha0 : a.offset = 0)
    (hv : Dict.get? v.attrs "units" = some uv) (hc : R.parse uv = some c) (hc0 : c.offset = 0)
    (h1 : v.toUnits R uw = .ok v') (h2 : w.add v' = .ok r)
    (h3 : convertTendencyO (dataArrayArith R) x q r = .ok z) :
    ∃ zw zv, convertTendencyO (dataArrayArith R) x q w = .ok zw ∧ convertTendencyO (dataArrayArith R) x q v = .ok zv ∧
      ∀ ix, z.at' ix = zw.at' ix + zv.at' ix := by
  obtain ⟨hattr, _, hat⟩ := add_ok h2
  have hru : Dict.get? r.attrs "units" = some uw := by rw [hattr]; exact hw
  unfold convertTendencyO at h3 ⊢
  rw [if_pos (show (dataArrayArith R).isContainer _ = true from rfl)] at h3 ⊢
  rw [if_pos (show (dataArrayArith R).isContainer _ = true from rfl)]
  rw [show Dict.get? ((dataArrayArith R).attrs r) "units" = some uw from hru] at h3
  rw [show Dict.get? ((dataArrayArith R).attrs w) "units" = some uw from hw,
    show Dict.get? ((dataArrayArith R).attrs v) "units" = some uv from hv]
  dsimp only at h3 ⊢
  obtain ⟨g, hg, h3⟩ := Exc.bind_ok_iff.1 h3
  obtain ⟨un, hun, h3⟩ := Exc.bind_ok_iff.1 h3
  simp only [hg, Exc.ok_bind, hun]
  have h3' : r.toUnits R (un ++ " s^-1") = .ok z := h3
  obtain ⟨_, _, b, _, _, hb, hd3, _⟩ := toUnits_at hR h3' (fun _ => 0)
  have hb0 := hs un b hb
  have hab : a.dim = b.dim := by
    obtain ⟨o1, a1, b1, e1, e2, e3, e4, _⟩ := toUnits_at hR h3' (fun _ => 0)
    rw [hru] at e1
    cases e1
    rw [ha] at e2
    cases e2
    rw [hb] at e3
    cases e3
    exact e4
  have hca : c.dim = a.dim := by
    obtain ⟨o1, a1, b1, e1, e2, e3, e4, _⟩ := toUnits_at hR h1 (fun _ => 0)
    rw [hv] at e1
    cases e1
    rw [hc] at e2
    cases e2
    rw [ha] at e3
    cases e3
    exact e4
  obtain ⟨zw, hzw⟩ := toUnits_isOk (R := R) hw ha hb hab
  obtain ⟨zv, hzv⟩ := toUnits_isOk (R := R) hv hc hb (hca.trans hab)
  refine ⟨zw, zv, hzw, hzv, fun ix => ?_⟩
  have k1 : v'.at' ix * a.scale = v.at' ix * c.scale := by
    obtain ⟨o1, a1, b1, e1, e2, e3, e4, e5⟩ := toUnits_at hR h1 ix
    rw [hv] at e1
    cases e1
    rw [hc] at e2
    cases e2
    rw [ha] at e3
    cases e3
    rw [ha0, hc0] at e5
    linarith
  have k2 : z.at' ix * b.scale = r.at' ix * a.scale := by
    obtain ⟨o1, a1, b1, e1, e2, e3, e4, e5⟩ := toUnits_at hR h3' ix
    rw [hru] at e1
    cases e1
    rw [ha] at e2
    cases e2
    rw [hb] at e3
    cases e3
    rw [ha0, hb0] at e5
    linarith
  have k3 : zw.at' ix * b.scale = w.at' ix * a.scale := by
    obtain ⟨o1, a1, b1, e1, e2, e3, e4, e5⟩ := toUnits_at hR hzw ix
    rw [hw] at e1
    cases e1
    rw [ha] at e2
    cases e2
    rw [hb] at e3
    cases e3
    rw [ha0, hb0] at e5
    linarith
  have k4 : zv.at' ix * b.scale = v.at' ix * c.scale := by
    obtain ⟨o1, a1, b1, e1, e2, e3, e4, e5⟩ := toUnits_at hR hzv ix
    rw [hv] at e1
    cases e1
    rw [hc] at e2
    cases e2
    rw [hb] at e3
    cases e3
    rw [hc0, hb0] at e5
    linarith
  have hne := ne_of_gt b.scale_pos
  have : (z.at' ix - (zw.at' ix + zv.at' ix)) * b.scale = 0 := by
    rw [sub_mul, add_mul, k2, k3, k4, hat ix, ← k1]
    ring
  rcases mul_eq_zero.1 this with h | h
  · linarith
  · exact absurd h hne

/-- What a composite has added up is the sum of what its components returned, in the units of the state. -/
theorem addIntoO_sum {R : Registry} (hR : R.Faithful) (hs : ∀ un b, R.parse (un ++ " s^-1") = some b → b.offset = 0)
    (x : EState DataArray) : ∀ (l acc : Dict DataArray) {acc' : Dict DataArray}, (Dict.keys l).Nodup → RateUnits R l →
      RateUnits R acc → addIntoO (dataArrayArith R) l acc = .ok acc' →
      RateUnits R acc' ∧ (∀ q, q ∈ Dict.keys acc' ↔ q ∈ Dict.keys acc ∨ q ∈ Dict.keys l) ∧
      ((Dict.keys acc).Nodup → (Dict.keys acc').Nodup) ∧
      (Converts R x acc' → Converts R x acc ∧ Converts R x l ∧
        ∀ q ix, cval R x acc' q ix = cval R x acc q ix + cval R x l q ix) := by
  intro l
  induction l with
  | nil =>
    intro acc acc' _ _ ha h
    unfold addIntoO at h
    cases h
    refine ⟨ha, fun q => ?_, fun hn => hn, fun hc => ⟨hc, fun q v hv => (by cases hv), fun q ix => ?_⟩⟩
    · constructor
      · exact Or.inl
      · rintro (h | h)
        · exact h
        · cases h
    · show _ = _ + 0
      rw [add_zero]
  | cons kv rest ih =>
    obtain ⟨k, v⟩ := kv
    intro acc acc' hn hl ha h
    have hn' : (k :: Dict.keys rest).Nodup := hn
    rw [List.nodup_cons] at hn'
    have hrest : RateUnits R rest := fun q a hq => hl q a (by
      rw [cons_ne _ _ (fun e => hn'.1 (by rw [e]; exact Dict.mem_keys_of_get? hq))]
      exact hq)
    have hk0 : Dict.get? rest k = none := (Dict.get?_eq_none_iff _ _).2 hn'.1
    obtain ⟨uv, c, hv, hc, hc0⟩ := hl k v (cons_self _ _ _)
    have step : ∀ v1, (∃ own u1, Dict.get? v1.attrs "units" = some own ∧ R.parse own = some u1 ∧ u1.offset = 0) →
        (∀ z1, convertTendencyO (dataArrayArith R) x k v1 = .ok z1 →
          (∀ w, Dict.get? acc k = some w → ∃ z, convertTendencyO (dataArrayArith R) x k w = .ok z) ∧
          (∃ z, convertTendencyO (dataArrayArith R) x k v = .ok z) ∧
          ∀ ix, z1.at' ix = cval R x acc k ix + cval R x ((k, v) :: rest) k ix) →
        addIntoO (dataArrayArith R) rest (Dict.set acc k v1) = .ok acc' →
        RateUnits R acc' ∧ (∀ q, q ∈ Dict.keys acc' ↔ q ∈ Dict.keys acc ∨ q ∈ Dict.keys ((k, v) :: rest)) ∧
        ((Dict.keys acc).Nodup → (Dict.keys acc').Nodup) ∧
        (Converts R x acc' → Converts R x acc ∧ Converts R x ((k, v) :: rest) ∧
          ∀ q ix, cval R x acc' q ix = cval R x acc q ix + cval R x ((k, v) :: rest) q ix) := by
      intro v1 hu1 hv1 h
      have hset : RateUnits R (Dict.set acc k v1) := by
        intro q a hq
        by_cases e : q = k
        · subst e
          rw [Dict.get?_set_self] at hq
          cases hq
          exact hu1
        · rw [Dict.get?_set_ne _ _ (Ne.symm e)] at hq
          exact ha q a hq
      obtain ⟨i1, i2, i3, i4⟩ := ih (Dict.set acc k v1) hn'.2 hrest hset h
      refine ⟨i1, fun q => ?_, fun hnd => i3 (Dict.nodup_keys_set hnd _ _), fun hcv => ?_⟩
      · rw [i2 q, Dict.mem_keys_set]
        show _ ↔ _ ∨ q ∈ k :: Dict.keys rest
        rw [List.mem_cons]
        tauto
      · obtain ⟨j1, j2, j3⟩ := i4 hcv
        obtain ⟨z1, hz1⟩ := j1 k v1 (Dict.get?_set_self _ _ _)
        obtain ⟨m1, m2, m3⟩ := hv1 z1 hz1
        refine ⟨fun q w hw => ?_, fun q w hw => ?_, fun q ix => ?_⟩
        · by_cases e : q = k
          · subst e
            exact m1 w hw
          · exact j1 q w (by rw [Dict.get?_set_ne _ _ (Ne.symm e)]; exact hw)
        · by_cases e : k = q
          · subst e
            rw [cons_self] at hw
            cases hw
            exact m2
          · rw [cons_ne _ _ e] at hw
            exact j2 q w hw
        · rw [j3 q ix]
          by_cases e : q = k
          · subst e
            rw [← m3 ix]
            unfold cval
            rw [Dict.get?_set_self, hk0]
            dsimp only
            rw [hz1, add_zero]
          · unfold cval
            rw [Dict.get?_set_ne _ _ (Ne.symm e), cons_ne _ _ (fun h => e h.symm)]
    unfold addIntoO at h
    cases hg : Dict.get? acc k with
    | none =>
      rw [hg] at h
      refine step v ⟨uv, c, hv, hc, hc0⟩ (fun z1 hz1 => ⟨fun w hw => (by rw [hg] at hw; cases hw), ⟨z1, hz1⟩, fun ix => ?_⟩) h
      unfold cval
      rw [hg, cons_self]
      dsimp only
      rw [hz1, zero_add]
    | some w =>
      obtain ⟨uw, a, hw, hpa, ha0⟩ := ha k w hg
      rw [hg] at h
      dsimp only at h
      rw [show Dict.get? ((dataArrayArith R).attrs w) "units" = some uw from hw,
        show Dict.get? ((dataArrayArith R).attrs v) "units" = some uv from hv] at h
      dsimp only at h
      obtain ⟨v', hv', h⟩ := Exc.bind_ok_iff.1 h
      obtain ⟨r, hr, h⟩ := Exc.bind_ok_iff.1 h
      have hattr := (add_ok hr).1
      refine step r ⟨uw, a, by rw [hattr]; exact hw, hpa, ha0⟩ (fun z1 hz1 => ?_) h
      obtain ⟨zw, zv, e1, e2, e3⟩ := convertTendencyO_add hR hs hw hpa ha0 hv hc hc0 hv' hr hz1
      refine ⟨fun w' hw' => ?_, ⟨zv, e2⟩, fun ix => ?_⟩
      · rw [hg] at hw'
        cases hw'
        exact ⟨zw, e1⟩
      · unfold cval
        rw [hg, cons_self]
        dsimp only
        rw [e1, e2]
        exact e3 ix

/-- What one of the components returns: tendencies of the quantities `Qi` among those of `Q`, in known units. -/
def ReturnsOf (R : Registry) (Q Qi : String → Prop) (t : Dict DataArray) : Prop :=
  (Dict.keys t).Nodup ∧ RateUnits R t ∧ ∀ q, Q q → (q ∈ Dict.keys t ↔ Qi q)

section
variable {I : (String → Nat) → Prop} {w : String → Rat} {Q : String → Prop} {J : Set ℝ} {σ ι : Type} [DecidableEq ι]
  {R : Registry} {implicit : ι → Bool} {p : ι → ProgOver σ DataArray} {deltas : ι → Int} {Ls : ι → Rat}
  {Qs : ι → String → Prop} {ys : ι → Trajectory} {Ds : ι → Nat → Rat}

/-- The memory of wrapper `i` is good enough for its part of the solution. -/
def GoodSlot (R : Registry) (I : (String → Nat) → Prop) (w : String → Rat) (Q : String → Prop) (J : Set ℝ)
    (deltas : ι → Int) (Ls : ι → Rat) (Qs : ι → String → Prop) (ys : ι → Trajectory) (i : ι) (τ : ℝ) (E : Rat)
    (c : UFW (Dict DataArray × Dict DataArray)) (x : EState DataArray) : Prop :=
  GoodCache I w (Qs i) (ys i) J (dataArrayArith R) 0 (Ls i) 0 0 (deltas i) τ E c x ∧
  ∀ r, c.cached = some r → ReturnsOf R Q (Qs i) r.1

/-- One after the other, the wrapped components add tendencies near their parts of the derivative. -/
theorem updating_loop (hR : R.Faithful) (hs : ∀ un b, R.parse (un ++ " s^-1") = some b → b.offset = 0)
    (hw : ∀ q, 0 ≤ w q) (hJ : Convex ℝ J) (hy : ∀ i, SmoothDuring I w (Qs i) (ys i) J 1 (Ds i)) (hD : ∀ i j, 0 ≤ Ds i j)
    {dt : Int} (hdelta : ∀ i, 0 ≤ deltas i)
    (hzero : ∀ i q, Q q → ¬ Qs i q → ∀ ix t, ys i 1 q ix t = 0)
    {x : EState DataArray} {τ : ℝ} (hτ : τ ∈ J) {E : Rat} (hE : 0 ≤ E) (hL : ∀ i, 0 ≤ Ls i)
    (hret : ∀ i s r, (p i s x dt).2 = .ok r → ReturnsOf R Q (Qs i) r.1)
    (hp : ∀ i s r t, (p i s x dt).2 = .ok r → convertTendenciesO (dataArrayArith R) x r.1 = .ok t →
      NearDerivative I w (Qs i) (ys i) (Ls i * E) τ t) :
    ∀ (is : List ι), is.Nodup → ∀ (sc sc' : σ × (ι → UFW (Dict DataArray × Dict DataArray))) (t0 d0 tt d : Dict DataArray),
      compositeLoopO (dataArrayArith R) (is.map fun i s => updatingSlot implicit p i s x dt) sc t0 d0 = (sc', .ok (tt, d)) →
      RateUnits R t0 → (∀ i ∈ is, GoodSlot R I w Q J deltas Ls Qs ys i τ E (sc.2 i) x) →
      ((Dict.keys t0).Nodup → (Dict.keys tt).Nodup) ∧
      (∀ q, Q q → (q ∈ Dict.keys tt ↔ q ∈ Dict.keys t0 ∨ ∃ i ∈ is, Qs i q)) ∧
      (∀ i, i ∉ is → sc'.2 i = sc.2 i) ∧
      (Converts R x tt → Converts R x t0 ∧
        (∀ q, Q q → ∀ ix, I ix → |(cval R x tt q ix : ℝ) - cval R x t0 q ix - (is.map fun i => ys i 1 q ix τ).sum| ≤
          (((is.map Ls).sum * E + (is.map fun i => Ds i 2 * seconds (deltas i)).sum : Rat) : ℝ) * w q) ∧
        ∀ i ∈ is, ∀ x' now later, 0 ≤ later → x.clock = .ok now → KeepsUnits x x' → x'.clock = .ok (now + later) →
          GoodSlot R I w Q J deltas Ls Qs ys i (τ + (seconds later : ℝ)) E (sc'.2 i) x') := by
  intro is
  induction is with
  | nil =>
    intro _ sc sc' t0 d0 tt d h _ _
    rw [List.map_nil] at h
    unfold compositeLoopO at h
    simp only [Prod.mk.injEq, Except.ok.injEq] at h
    obtain ⟨rfl, rfl, rfl⟩ := h
    refine ⟨fun h => h, fun q _ => ⟨Or.inl, ?_⟩, fun _ _ => rfl, fun hc => ⟨hc, fun q _ ix _ => ?_, fun i hi => (by cases hi)⟩⟩
    · rintro (h | ⟨i, hi, _⟩)
      · exact h
      · cases hi
    · simp
  | cons i is ih =>
    intro hnd sc sc' t0 d0 tt d h hu0 hM
    rw [List.nodup_cons] at hnd
    rw [List.map_cons] at h
    unfold compositeLoopO at h
    dsimp only at h
    cases hr : (updatingSlot implicit p i sc x dt).2 with
    | error e => rw [hr] at h; cases h
    | ok r =>
    rw [hr] at h
    dsimp only at h
    cases ha : addIntoO (dataArrayArith R) r.1 t0 with
    | error e => rw [ha] at h; cases h
    | ok t1 =>
    rw [ha] at h
    dsimp only at h
    have hr' : (updatingO (implicit i) (p i) (sc.1, sc.2 i) x dt).2 = .ok r := hr
    obtain ⟨hgc, hcr⟩ := hM i (by simp)
    have hrr : ReturnsOf R Q (Qs i) r.1 := by
      obtain ⟨_, _, ⟨hnew, _⟩ | ⟨_, _, _, hca, _⟩⟩ := updatingO_ok hr'
      · exact hret i _ r hnew
      · exact hcr r hca
    obtain ⟨a1, a2, a3, a4⟩ := addIntoO_sum hR hs x r.1 t0 hrr.1 hrr.2.1 hu0 ha
    have hother : ∀ j, j ≠ i → (updatingSlot implicit p i sc x dt).1.2 j = sc.2 j := fun j hj =>
      Function.update_of_ne hj _ _
    have hself : (updatingSlot implicit p i sc x dt).1.2 i = (updatingO (implicit i) (p i) (sc.1, sc.2 i) x dt).1.2 :=
      Function.update_self _ _ _
    obtain ⟨b1, b2, b3, b4⟩ := ih hnd.2 _ sc' t1 _ tt d h a1 (fun j hj => by
      rw [hother j (fun e => hnd.1 (by rw [← e]; exact hj))]
      exact hM j (by simp [hj]))
    refine ⟨fun hn => b1 (a3 hn), fun q hq => ?_, fun j hj => ?_, fun hcv => ?_⟩
    · rw [b2 q hq, a2 q, hrr.2.2 q hq]
      constructor
      · rintro ((g | g) | ⟨j, hj, g⟩)
        · exact Or.inl g
        · exact Or.inr ⟨i, by simp, g⟩
        · exact Or.inr ⟨j, by simp [hj], g⟩
      · rintro (g | ⟨j, hj, g⟩)
        · exact Or.inl (Or.inl g)
        · rcases List.mem_cons.1 hj with e | hj
          · rw [e] at g
            exact Or.inl (Or.inr g)
          · exact Or.inr ⟨j, hj, g⟩
    · rw [List.mem_cons, not_or] at hj
      rw [b3 j hj.2, hother j hj.1]
    · obtain ⟨c1, c2, c3⟩ := b4 hcv
      obtain ⟨e1, e2, e3⟩ := a4 c1
      obtain ⟨ti, hti⟩ := ok_of_converts hrr.1 e2
      have hstep := GoodCache.step (fl := id) (conv := fun a units => a.toUnits R units) (u := 0) (e := 0) (T := 0)
        hJ (le_refl 1) (hy i) (hD i) hw (hdelta i) (p := p i) (implicit := implicit i) (s := sc.1) (c := sc.2 i) (x := x)
        hτ (L := Ls i) (E := E) (dt := dt)
      rw [roundedArith_id] at hstep
      obtain ⟨⟨_, hnear⟩, hnext⟩ := hstep hgc (fun r t hr ht => ⟨fun h0 => absurd rfl h0, by
        rw [add_zero]
        exact hp i _ r t hr ht⟩) hr' hti
      rw [zero_add] at hnear
      refine ⟨e1, fun q hq ix hix => ?_, fun j hj x' now later h0 h1 h2 h3 => ?_⟩
      · have hi := c2 q hq ix hix
        rw [e3 q ix] at hi
        have hval := (converts_of_ok hti).2 q ix
        have hone : |(cval R x r.1 q ix : ℝ) - ys i 1 q ix τ| ≤ ((Ls i * E + Ds i 2 * seconds (deltas i) : Rat) : ℝ) * w q := by
          by_cases hqi : Qs i q
          · rw [← hval]
            exact (hnear q hqi).2 ix hix
          · rw [hzero i q hq hqi]
            have hno : Dict.get? r.1 q = none := (Dict.get?_eq_none_iff _ _).2 (fun h => hqi ((hrr.2.2 q hq).1 h))
            unfold cval
            rw [hno]
            simp only [Rat.cast_zero, sub_zero, abs_zero]
            have h1 : 0 ≤ Ls i * E + Ds i 2 * seconds (deltas i) := by
              have h2 : (0 : ℝ) ≤ (seconds (deltas i) : ℝ) := seconds_nonneg (hdelta i)
              have h3 : 0 ≤ seconds (deltas i) := by exact_mod_cast h2
              exact add_nonneg (mul_nonneg (hL i) hE) (mul_nonneg (hD i 2) h3)
            exact mul_nonneg (by exact_mod_cast h1) (by exact_mod_cast hw q)
        simp only [List.map_cons, List.sum_cons]
        have e : (cval R x tt q ix : ℝ) - cval R x t0 q ix - (ys i 1 q ix τ + (is.map fun i => ys i 1 q ix τ).sum) =
            ((cval R x tt q ix : ℝ) - ((cval R x t0 q ix + cval R x r.1 q ix : Rat) : ℝ) -
              (is.map fun i => ys i 1 q ix τ).sum) + ((cval R x r.1 q ix : ℝ) - ys i 1 q ix τ) := by
          push_cast
          ring
        rw [e]
        refine le_trans (abs_add_le _ _) (le_trans (add_le_add hi hone) (le_of_eq ?_))
        push_cast
        ring
      · rcases List.mem_cons.1 hj with rfl | hj
        · rw [b3 j hnd.1, hself]
          refine ⟨hnext x' now later h0 h1 h2 h3, fun r' hr1 => ?_⟩
          obtain ⟨_, _, ⟨_, hs2⟩ | ⟨_, _, _, _, hs2⟩⟩ := updatingO_ok hr'
          · rw [hs2] at hr1
            cases hr1
            exact hrr
          · rw [hs2] at hr1
            exact hcr r' hr1
        · exact c3 j hj x' now later h0 h1 h2 h3

/-- A call of the composite of the wrapped components. -/
theorem updating_call [Fintype ι] (hR : R.Faithful) (hs : ∀ un b, R.parse (un ++ " s^-1") = some b → b.offset = 0)
    (hw : ∀ q, 0 ≤ w q) (hJ : Convex ℝ J) (hy : ∀ i, SmoothDuring I w (Qs i) (ys i) J 1 (Ds i)) (hD : ∀ i j, 0 ≤ Ds i j)
    {dt : Int} (hdelta : ∀ i, 0 ≤ deltas i)
    (hzero : ∀ i q, Q q → ¬ Qs i q → ∀ ix t, ys i 1 q ix t = 0) (hcover : ∀ q, Q q → ∃ i, Qs i q)
    {y : Trajectory} (hsum : ∀ q, Q q → ∀ ix, I ix → ∀ t ∈ J, y 1 q ix t = ∑ i, ys i 1 q ix t)
    {x : EState DataArray} {τ : ℝ} (hτ : τ ∈ J) {E : Rat} (hE : 0 ≤ E) (hL : ∀ i, 0 ≤ Ls i)
    (hret : ∀ i s r, (p i s x dt).2 = .ok r → ReturnsOf R Q (Qs i) r.1)
    (hp : ∀ i s r t, (p i s x dt).2 = .ok r → convertTendenciesO (dataArrayArith R) x r.1 = .ok t →
      NearDerivative I w (Qs i) (ys i) (Ls i * E) τ t)
    {is : List ι} (his : is.Nodup) (hall : ∀ i, i ∈ is) {sc : σ × (ι → UFW (Dict DataArray × Dict DataArray))}
    (hM : ∀ i, GoodSlot R I w Q J deltas Ls Qs ys i τ E (sc.2 i) x) {r : Dict DataArray × Dict DataArray}
    (hr : (compositeO (dataArrayArith R) (is.map (updatingSlot implicit p)) sc x dt).2 = .ok r) :
    (Dict.keys r.1).Nodup ∧
    ∀ t, convertTendenciesO (dataArrayArith R) x r.1 = .ok t →
      NearDerivative I w Q y ((∑ i, Ls i) * E + ∑ i, Ds i 2 * seconds (deltas i)) τ t ∧
      ∀ i x' now later, 0 ≤ later → x.clock = .ok now → KeepsUnits x x' → x'.clock = .ok (now + later) →
        GoodSlot R I w Q J deltas Ls Qs ys i (τ + (seconds later : ℝ)) E
          ((compositeO (dataArrayArith R) (is.map (updatingSlot implicit p)) sc x dt).1.2 i) x' := by
  have hfin : ∀ {β : Type} [AddCommMonoid β] (f : ι → β), (is.map f).sum = ∑ i, f i := by
    intro β _ f
    rw [← List.sum_toFinset f his]
    congr 1
    ext i
    simp [hall i]
  have hc : compositeO (dataArrayArith R) (is.map (updatingSlot implicit p)) sc x dt =
      compositeLoopO (dataArrayArith R) (is.map fun i s => updatingSlot implicit p i s x dt) sc [] [] := by
    unfold compositeO
    rw [List.map_map]
    rfl
  rw [hc] at hr ⊢
  obtain ⟨tt, d⟩ := r
  obtain ⟨l1, l2, _, l4⟩ := updating_loop (implicit := implicit) (p := p) (deltas := deltas) (Ls := Ls) hR hs hw hJ hy hD hdelta
    hzero hτ hE hL hret hp is his sc _ [] [] tt d (Prod.ext rfl hr) (fun q a h => by cases h) (fun i _ => hM i)
  refine ⟨l1 List.nodup_nil, fun t ht => ?_⟩
  obtain ⟨v1, v2⟩ := converts_of_ok ht
  obtain ⟨_, m2, m3⟩ := l4 v1
  refine ⟨fun q hq => ⟨?_, fun ix hix => ?_⟩, fun i => m3 i (hall i)⟩
  · rw [convertTendenciesO_keys ht]
    obtain ⟨i, hi⟩ := hcover q hq
    exact (l2 q hq).2 (Or.inr ⟨i, hall i, hi⟩)
  · have := m2 q hq ix hix
    rw [hfin, hfin, hfin, ← v2, ← hsum q hq ix hix τ hτ] at this
    have h0 : cval R x [] q ix = 0 := rfl
    rw [h0, Rat.cast_zero, sub_zero] at this
    exact this

/-- The components `p` compute the parts of the right hand side of a differential equation: component `i` has tendencies of
the quantities `Qs i`, on states within `E` of the solution `y` within `Ls i * E` of the derivative of the part `ys i`, and
the derivatives of the parts add up to that of the solution. -/
structure PartsOf [Fintype ι] (R : Registry) (I : (String → Nat) → Prop) (w : String → Rat) (Q : String → Prop) (J : Set ℝ)
    (y : Trajectory) (p : ι → ProgOver σ DataArray) (dt : Int) (Ls : ι → Rat) (Qs : ι → String → Prop) (ys : ι → Trajectory)
    (Ds : ι → Nat → Rat) : Prop where
  smooth : ∀ i, SmoothDuring I w (Qs i) (ys i) J 1 (Ds i)
  bounds : ∀ i j, 0 ≤ Ds i j
  lipschitz : ∀ i, 0 ≤ Ls i
  others : ∀ i q, Q q → ¬ Qs i q → ∀ ix t, ys i 1 q ix t = 0
  cover : ∀ q, Q q → ∃ i, Qs i q
  sum : ∀ q, Q q → ∀ ix, I ix → ∀ t ∈ J, y 1 q ix t = ∑ i, ys i 1 q ix t
  returns : ∀ i s x r, (p i s x dt).2 = .ok r → ReturnsOf R Q (Qs i) r.1
  rhs : ∀ i s x r t now E, EState.clock x = .ok now → (seconds now : ℝ) ∈ J → (p i s x dt).2 = .ok r →
    convertTendenciesO (dataArrayArith R) x r.1 = .ok t → 0 ≤ E → NearSolution I w Q y E (seconds now) x →
    NearDerivative I w (Qs i) (ys i) (Ls i * E) (seconds now) t

variable [Fintype ι] {y : Trajectory} {D : Nat → Rat}

theorem PartsOf.call {dt : Int} (hS : PartsOf R I w Q J y p dt Ls Qs ys Ds) (hR : R.Faithful)
    (hs : ∀ un b, R.parse (un ++ " s^-1") = some b → b.offset = 0) (hw : ∀ q, 0 ≤ w q) (hJ : Convex ℝ J)
    (hdelta : ∀ i, 0 ≤ deltas i) {x : EState DataArray} {now : Int} (hnow : x.clock = .ok now) {τ : ℝ}
    (hτn : τ = (seconds now : ℝ)) (hτ : τ ∈ J) {E : Rat} (hE : 0 ≤ E) (hx : NearSolution I w Q y E τ x)
    {is : List ι} (his : is.Nodup) (hall : ∀ i, i ∈ is) {sc : σ × (ι → UFW (Dict DataArray × Dict DataArray))}
    (hM : ∀ i, GoodSlot R I w Q J deltas Ls Qs ys i τ E (sc.2 i) x) {r : Dict DataArray × Dict DataArray}
    (hr : (compositeO (dataArrayArith R) (is.map (updatingSlot implicit p)) sc x dt).2 = .ok r) :
    (Dict.keys r.1).Nodup ∧
    ∀ t, convertTendenciesO (dataArrayArith R) x r.1 = .ok t →
      NearDerivative I w Q y ((∑ i, Ls i) * E + ∑ i, Ds i 2 * seconds (deltas i)) τ t ∧
      ∀ i x' later, 0 ≤ later → KeepsUnits x x' → x'.clock = .ok (now + later) →
        GoodSlot R I w Q J deltas Ls Qs ys i (τ + (seconds later : ℝ)) E
          ((compositeO (dataArrayArith R) (is.map (updatingSlot implicit p)) sc x dt).1.2 i) x' := by
  subst hτn
  obtain ⟨h1, h2⟩ := updating_call hR hs hw hJ hS.smooth hS.bounds hdelta hS.others hS.cover hS.sum hτ hE hS.lipschitz
    (fun i s r hr => hS.returns i s x r hr) (fun i s r t hr ht => hS.rhs i s x r t now E hnow hτ hr ht hE hx) his hall hM hr
  exact ⟨h1, fun t ht => ⟨(h2 t ht).1, fun i x' later hl => (h2 t ht).2 i x' now later hl hnow⟩⟩

omit [DecidableEq ι] [Fintype ι] in
theorem GoodSlot.mono (hw : ∀ q, 0 ≤ w q) (hL : ∀ i, 0 ≤ Ls i) {i : ι} {τ : ℝ} {E E' : Rat} (hE : E ≤ E')
    {c : UFW (Dict DataArray × Dict DataArray)} {x : EState DataArray} (h : GoodSlot R I w Q J deltas Ls Qs ys i τ E c x) :
    GoodSlot R I w Q J deltas Ls Qs ys i τ E' c x :=
  ⟨h.1.mono hw (hL i) hE, h.2⟩

/-- C128, AdamsBashforth of any order: the components are in wrappers of their own, the `i`-th one with `deltas i` between
its updates, and compute parts of the right hand side; the run ends within the bound of C115 with the additional error
`∑ Ds i 2 * deltas i` in the tendencies. -/
theorem ab_run_each_any {k : Nat} (hk : 1 ≤ k) {dt : Int} (hS : PartsOf R I w Q J y p dt Ls Qs ys Ds)
    (hR : R.Faithful) (hs : ∀ un b, R.parse (un ++ " s^-1") = some b → b.offset = 0) (hw : ∀ q, 0 ≤ w q) (hJ : Convex ℝ J)
    (hy : SmoothDuring I w Q y J k D) (hD : ∀ j, 0 ≤ D j) (implicit : ι → Bool) (inProps outProps : PropDict) (inst : String)
    (tid : Bool) {b : Dict DataArray → EState DataArray → EState DataArray} (hdt : 0 ≤ dt) (hdelta : ∀ i, 0 ≤ deltas i)
    (hb : ∀ d x q, Q q → Dict.get? (b d x) q = Dict.get? x q) (hbu : ∀ d x, KeepsUnits x (b d x))
    (hbt : ∀ d x c, EState.clock x = .ok c → EState.clock (b d x) = .ok (c + dt)) (n : Nat) {E0 : Rat} (hE0 : 0 ≤ E0) (s : σ)
    (x : EState DataArray) {now : Int} (hnow : x.clock = .ok now) {is : List ι} (his : is.Nodup) (hall : ∀ i, i ∈ is)
    {abf : ABOver DataArray} {sf : σ × (ι → UFW (Dict DataArray × Dict DataArray))} {xf : EState DataArray}
    (htimes : ∀ i ≤ n, (seconds now : ℝ) + i * (seconds dt : ℝ) ∈ J) (hx : NearSolution I w Q y E0 (seconds now) x)
    (h : runOver (tsCallO (dataArrayArith R) inProps outProps inst tid (abCallO (dataArrayArith R)
        (compositeO (dataArrayArith R) (is.map (updatingSlot implicit p))))) b dt n { order := k }
          (s, fun i => { delta := deltas i }) x = (abf, sf, .ok xf)) :
    NearSolution I w Q y ((1 + |seconds dt| * (20 / 3) * ∑ i, Ls i) ^ n * (E0 + ((List.range n).map fun i =>
      abStepError k D (seconds dt) i + addedError 0 (∑ i, Ds i 2 * seconds (deltas i)) 0 0 (seconds dt)).sum))
      ((seconds now : ℝ) + n * (seconds dt : ℝ)) xf := by
  have hL : 0 ≤ ∑ i, Ls i := Finset.sum_nonneg fun i _ => hS.lipschitz i
  have hds : ∀ i, 0 ≤ seconds (deltas i) := fun i => by
    have : (0 : ℝ) ≤ (seconds (deltas i) : ℝ) := seconds_nonneg (hdelta i)
    exact_mod_cast this
  have he : 0 ≤ ∑ i, Ds i 2 * seconds (deltas i) := Finset.sum_nonneg fun i _ => mul_nonneg (hS.bounds i 2) (hds i)
  refine ab_run_converges_memory (u := 0) (fl := id) (le_refl 0) id_rounds (fun a units => a.toUnits R units) hw hJ hy hD hL he
    (le_refl (0 : Rat)) (le_refl (0 : Rat)) (p := compositeO (dataArrayArith R) (is.map (updatingSlot implicit p)))
    inProps outProps inst tid hb dt
    (Z := fun x x' => KeepsUnits x x' ∧ ∀ c, EState.clock x = .ok c → EState.clock x' = .ok (c + dt))
    (M := fun τ E sc x => (∃ c, EState.clock x = .ok c ∧ τ = (seconds c : ℝ)) ∧
      ∀ i, GoodSlot R I w Q J deltas Ls Qs ys i τ E (sc.2 i) x)
    (fun ab s x ab' s' st d new hc => by
      obtain ⟨h1, h2⟩ := ab_step_keeps hc
      refine ⟨fun q a ha => ?_, fun c hcl => hbt _ _ _ (h2 c hcl)⟩
      obtain ⟨a', ha', hua⟩ := h1 q a ha
      obtain ⟨a2, ha2, hua2⟩ := hbu d new q a' ha'
      exact ⟨a2, ha2, hua2.trans hua⟩)
    (fun τ E E' s x hE hm => ⟨hm.1, fun i => (hm.2 i).mono hw hS.lipschitz hE⟩) n hk hE0
    (s, fun i => { delta := deltas i }) x (seconds now) (abf := abf) (sf := sf) (xf := xf) htimes hx
    ⟨⟨now, hnow, rfl⟩, fun i => ⟨⟨rfl, ⟨now, hnow, rfl⟩, Or.inl fun tl h => (by cases h)⟩, fun r hr => (by cases hr)⟩⟩
    (by
      rintro i hi abi sci xi -
      refine ⟨fun h0 => absurd rfl h0, ?_⟩
      rintro r t hr ht E hE hne ⟨⟨c, hc, hτ⟩, hM⟩
      rw [roundedArith_id] at ht
      obtain ⟨_, h2⟩ := hS.call hR hs hw hJ hdelta hc hτ (htimes i (by omega)) hE hne his hall hM hr
      obtain ⟨h3, h4⟩ := h2 t ht
      have hnext : (seconds now : ℝ) + (i + 1 : ℕ) * (seconds dt : ℝ) =
          (seconds now : ℝ) + i * (seconds dt : ℝ) + (seconds dt : ℝ) := by
        push_cast
        ring
      refine ⟨fun h0 => absurd rfl h0, h3, ?_⟩
      rintro x' ⟨hz1, hz2⟩
      refine ⟨⟨c + dt, hz2 c hc, by rw [hnext, hτ, seconds_add]⟩, fun j => ?_⟩
      rw [hnext]
      exact h4 j x' dt hdt hz1 (hz2 c hc))
    (by rw [roundedArith_id]; exact h)

/-- C128: a run of `n` steps of a new AdamsBashforth of order 1 or 2 with any number of components, each in a new
UpdateFrequencyWrapper with its own time `deltas i` between updates (0 for components that are not wrapped), in exact
arithmetic: the error of C115, and for each component an error of first order in its own time between updates. -/
theorem ab_run_each {k : Nat} (hk : k = 1 ∨ k = 2) {dt : Int} (hS : PartsOf R I w Q J y p dt Ls Qs ys Ds)
    (hR : R.Faithful) (hs : ∀ un b, R.parse (un ++ " s^-1") = some b → b.offset = 0) (hw : ∀ q, 0 ≤ w q) (hJ : Convex ℝ J)
    (hy : SmoothDuring I w Q y J k D) (hD : ∀ j, 0 ≤ D j) (implicit : ι → Bool) (inProps outProps : PropDict) (inst : String)
    (tid : Bool) {b : Dict DataArray → EState DataArray → EState DataArray} (hdt : 0 ≤ dt) (hdelta : ∀ i, 0 ≤ deltas i)
    (hb : ∀ d x q, Q q → Dict.get? (b d x) q = Dict.get? x q) (hbu : ∀ d x, KeepsUnits x (b d x))
    (hbt : ∀ d x c, EState.clock x = .ok c → EState.clock (b d x) = .ok (c + dt)) (n : Nat) (hn : 1 ≤ n) (s : σ)
    (x : EState DataArray) {now : Int} (hnow : x.clock = .ok now) {is : List ι} (his : is.Nodup) (hall : ∀ i, i ∈ is)
    {abf : ABOver DataArray} {sf : σ × (ι → UFW (Dict DataArray × Dict DataArray))} {xf : EState DataArray}
    (htimes : ∀ i ≤ n, (seconds now : ℝ) + i * (seconds dt : ℝ) ∈ J) (hx : NearSolution I w Q y 0 (seconds now) x)
    (h : runOver (tsCallO (dataArrayArith R) inProps outProps inst tid (abCallO (dataArrayArith R)
        (compositeO (dataArrayArith R) (is.map (updatingSlot implicit p))))) b dt n { order := k }
          (s, fun i => { delta := deltas i }) x = (abf, sf, .ok xf)) :
    ∀ q, Q q → ∃ a, Dict.get? xf q = some (.da a) ∧ ∀ ix, I ix →
      |(a.at' ix : ℝ) - y 0 q ix ((seconds now : ℝ) + n * (seconds dt : ℝ))| ≤
        Real.exp (20 / 3 * (∑ i, (Ls i : ℝ)) * (n * (seconds dt : ℝ))) *
        ((if k = 1 then D 2 / 2 * (n * (seconds dt : ℝ)) * (seconds dt : ℝ)
          else (D 2 / 2 + 5 / 12 * D 3 * (n * (seconds dt : ℝ))) * (seconds dt : ℝ) ^ 2) +
          20 / 3 * (n * (seconds dt : ℝ)) * ∑ i, (Ds i 2 : ℝ) * (seconds (deltas i) : ℝ)) * w q := by
  have hL : 0 ≤ ∑ i, Ls i := Finset.sum_nonneg fun i _ => hS.lipschitz i
  have hds : ∀ i, 0 ≤ seconds (deltas i) := fun i => by
    have : (0 : ℝ) ≤ (seconds (deltas i) : ℝ) := seconds_nonneg (hdelta i)
    exact_mod_cast this
  have he : 0 ≤ ∑ i, Ds i 2 * seconds (deltas i) := Finset.sum_nonneg fun i _ => mul_nonneg (hS.bounds i 2) (hds i)
  have main := ab_run_each_any (by omega) hS hR hs hw hJ hy hD implicit inProps outProps inst tid hdt hdelta hb hbu hbt n
    (le_refl (0 : Rat)) s x hnow his hall htimes hx h
  have hh : (0 : ℝ) ≤ (seconds dt : ℝ) := seconds_nonneg hdt
  have hh' : 0 ≤ seconds dt := by exact_mod_cast hh
  have hLc : ((∑ i, Ls i : Rat) : ℝ) = ∑ i, (Ls i : ℝ) := by push_cast; rfl
  have hec : ((∑ i, Ds i 2 * seconds (deltas i) : Rat) : ℝ) = ∑ i, (Ds i 2 : ℝ) * (seconds (deltas i) : ℝ) := by push_cast; rfl
  rw [← hLc, ← hec]
  generalize (∑ i, Ls i) = L at *
  generalize (∑ i, Ds i 2 * seconds (deltas i)) = e at *
  have hadd : addedError 0 e 0 0 (seconds dt) = seconds dt * (20 / 3) * e := by
    unfold addedError
    rw [abs_of_nonneg hh']
    simp
  rw [List.sum_map_add] at main
  simp only [zero_add, hadd, List.map_const', List.sum_replicate, List.length_range, nsmul_eq_mul, abs_of_nonneg hh'] at main
  intro q hq
  obtain ⟨a, ha, hv⟩ := main q hq
  refine ⟨a, ha, fun ix hix => le_trans (hv ix hix) ?_⟩
  have hwq : (0 : ℝ) ≤ w q := by exact_mod_cast hw q
  refine mul_le_mul_of_nonneg_right ?_ hwq
  have hL' : (0 : ℝ) ≤ L := by exact_mod_cast hL
  have he' : (0 : ℝ) ≤ e := by exact_mod_cast he
  have hD2 : (0 : ℝ) ≤ D 2 := by exact_mod_cast hD 2
  have hD3 : (0 : ℝ) ≤ D 3 := by exact_mod_cast hD 3
  have hK : (1 + (seconds dt : ℝ) * (20 / 3) * L) ^ n ≤ Real.exp (20 / 3 * L * (n * (seconds dt : ℝ))) := by
    have h1 : 1 + (seconds dt : ℝ) * (20 / 3) * L ≤ Real.exp ((seconds dt : ℝ) * (20 / 3) * L) := by
      have := Real.add_one_le_exp ((seconds dt : ℝ) * (20 / 3) * L)
      linarith
    refine le_trans (pow_le_pow_left₀ (by positivity) h1 n) (le_of_eq ?_)
    rw [← Real.exp_nat_mul]
    congr 1
    ring
  obtain ⟨n, rfl⟩ : ∃ m, n = m + 1 := ⟨n - 1, by omega⟩
  push_cast at hK
  rcases hk with rfl | rfl
  · rw [(abStepError_sum D (seconds dt) (n + 1)).1, if_pos rfl, abs_of_nonneg hh']
    push_cast
    refine mul_le_mul hK (le_of_eq (by ring)) (by positivity) (le_of_lt (Real.exp_pos _))
  · rw [(abStepError_sum D (seconds dt) n).2, if_neg (by norm_num), abs_of_nonneg hh']
    push_cast
    refine mul_le_mul hK ?_ (by positivity) (le_of_lt (Real.exp_pos _))
    have : (0 : ℝ) ≤ 5 / 12 * D 3 * (seconds dt : ℝ) ^ 3 := by positivity
    nlinarith

/-- C128 with Leapfrog: the error of C117, and for each component an error of first order in its own time between updates. -/
theorem lf_run_each {dt : Int} (hS : PartsOf R I w Q J y p dt Ls Qs ys Ds)
    (hR : R.Faithful) (hs : ∀ un b, R.parse (un ++ " s^-1") = some b → b.offset = 0) (hw : ∀ q, 0 ≤ w q) (hJ : Convex ℝ J)
    (hy : SmoothDuring I w Q y J 2 D) (hD : ∀ j, 0 ≤ D j) {ν α : Rat} (hν0 : 0 ≤ ν) (hν : ν ≤ 1) (hα0 : 0 ≤ α) (hα : α ≤ 1)
    (implicit : ι → Bool) (inProps outProps : PropDict) (inst : String)
    (tid : Bool) {b : Dict DataArray → EState DataArray → EState DataArray} (hdt : 0 ≤ dt) (hdelta : ∀ i, 0 ≤ deltas i)
    (hb : ∀ d x q, Q q → Dict.get? (b d x) q = Dict.get? x q) (hbu : ∀ d x, KeepsUnits x (b d x))
    (hbt : ∀ d x c, EState.clock x = .ok c → EState.clock (b d x) = .ok (c + dt)) (n : Nat) (hn : 1 ≤ n) (s : σ)
    (x : EState DataArray) {now : Int} (hnow : x.clock = .ok now) {is : List ι} (his : is.Nodup) (hall : ∀ i, i ∈ is)
    {lff : LFOver DataArray} {sf : σ × (ι → UFW (Dict DataArray × Dict DataArray))} {xf : EState DataArray}
    (htimes : ∀ i ≤ n, (seconds now : ℝ) + i * (seconds dt : ℝ) ∈ J) (hx : NearSolution I w Q y 0 (seconds now) x)
    (h : runOver (tsCallO (dataArrayArith R) inProps outProps inst tid (LFOver.call (dataArrayArith R)
        (compositeO (dataArrayArith R) (is.map (updatingSlot implicit p))))) b dt n { strength := ν, alpha := α }
          (s, fun i => { delta := deltas i }) x = (lff, sf, .ok xf)) :
    ∀ q, Q q → ∃ a, Dict.get? xf q = some (.da a) ∧ ∀ ix, I ix →
      |(a.at' ix : ℝ) - y 0 q ix ((seconds now : ℝ) + n * (seconds dt : ℝ))| ≤
        Real.exp (2 * (∑ i, (Ls i : ℝ)) * (n * (seconds dt : ℝ))) *
        (ν * (D 2 / 2) * (n * (seconds dt : ℝ)) * (seconds dt : ℝ) +
          (D 2 / 2 + D 3 / 3 * (n * (seconds dt : ℝ))) * (seconds dt : ℝ) ^ 2 +
          2 * (n * (seconds dt : ℝ)) * ∑ i, (Ds i 2 : ℝ) * (seconds (deltas i) : ℝ)) * w q := by
  have hL : 0 ≤ ∑ i, Ls i := Finset.sum_nonneg fun i _ => hS.lipschitz i
  have hds : ∀ i, 0 ≤ seconds (deltas i) := fun i => by
    have : (0 : ℝ) ≤ (seconds (deltas i) : ℝ) := seconds_nonneg (hdelta i)
    exact_mod_cast this
  have he : 0 ≤ ∑ i, Ds i 2 * seconds (deltas i) := Finset.sum_nonneg fun i _ => mul_nonneg (hS.bounds i 2) (hds i)
  have main := lf_run_converges_memory (u := 0) (fl := id) (le_refl 0) id_rounds (fun a units => a.toUnits R units) hw hJ hy hD hL he
    (le_refl (0 : Rat)) (le_refl (0 : Rat)) (p := compositeO (dataArrayArith R) (is.map (updatingSlot implicit p)))
    hν0 hν hα0 hα inProps outProps inst tid hb (dt := dt)
    (M := fun τ E lf sc x => ((∃ c, EState.clock x = .ok c ∧ τ = (seconds c : ℝ)) ∧
      ∀ i, GoodSlot R I w Q J deltas Ls Qs ys i τ E (sc.2 i) x) ∧ ∀ o, lf.old = some o → KeepsUnits o x)
    (fun τ E E' lf s x hE hm => ⟨⟨hm.1.1, fun i => (hm.1.2 i).mono hw hS.lipschitz hE⟩, hm.2⟩) n (le_refl (0 : Rat))
    (s, fun i => { delta := deltas i }) x (seconds now) (lff := lff) (sf := sf) (xf := xf) htimes hx
    ⟨⟨⟨now, hnow, rfl⟩, fun i => ⟨⟨rfl, ⟨now, hnow, rfl⟩, Or.inl fun tl h => (by cases h)⟩, fun r hr => (by cases hr)⟩⟩, fun o ho => (by cases ho)⟩
    (by
      rintro i hi lfi sci xi -
      refine ⟨fun h0 => absurd rfl h0, ?_⟩
      rintro E hE hne ⟨⟨⟨c, hc, hτ⟩, hM⟩, hold⟩
      have hnext : (seconds now : ℝ) + (i + 1 : ℕ) * (seconds dt : ℝ) =
          (seconds now : ℝ) + i * (seconds dt : ℝ) + (seconds dt : ℝ) := by
        push_cast
        ring
      have hcall := fun r hr => hS.call (implicit := implicit) hR hs hw hJ hdelta hc hτ (htimes i (by omega)) hE hne his hall hM
        (r := r) hr
      have hnd : ∀ r, (compositeO (dataArrayArith R) (is.map (updatingSlot implicit p)) sci xi dt).2 = .ok r →
        (Dict.keys r.1).Nodup := fun r hr => (hcall r hr).1
      refine ⟨hnd, fun r t hr ht => ?_, fun lf' s' st d new hstep => ?_⟩
      · rw [roundedArith_id] at ht
        exact ⟨fun h0 => absurd rfl h0, ((hcall r hr).2 t ht).1⟩
      · obtain ⟨k1, k2, k3⟩ := lf_step_keeps hold hnd hstep
        have htrans : ∀ {z}, KeepsUnits z new → KeepsUnits z (b d new) := by
          intro z hz q a ha
          obtain ⟨a', ha', hua⟩ := hz q a ha
          obtain ⟨a2, ha2, hua2⟩ := hbu d new q a' ha'
          exact ⟨a2, ha2, hua2.trans hua⟩
        obtain ⟨d0, m, hk, _⟩ := tsCallO_keeps hstep
        obtain ⟨_, _, _, r, t, _, hr, ht, _⟩ := lfOver_ok hk
        rw [roundedArith_id] at ht
        rw [lfCall_world hk]
        refine ⟨⟨⟨c + dt, hbt _ _ _ (k2 c hc), by rw [hnext, hτ, seconds_add]⟩, fun j => ?_⟩, fun o ho => htrans (k3 o ho)⟩
        rw [hnext]
        exact ((hcall r hr).2 t ht).2 j _ dt hdt (htrans k1) (hbt _ _ _ (k2 c hc)))
    (by rw [roundedArith_id]; exact h)
  have hh : (0 : ℝ) ≤ (seconds dt : ℝ) := seconds_nonneg hdt
  have hh' : 0 ≤ seconds dt := by exact_mod_cast hh
  have hLc : ((∑ i, Ls i : Rat) : ℝ) = ∑ i, (Ls i : ℝ) := by push_cast; rfl
  have hec : ((∑ i, Ds i 2 * seconds (deltas i) : Rat) : ℝ) = ∑ i, (Ds i 2 : ℝ) * (seconds (deltas i) : ℝ) := by push_cast; rfl
  rw [← hLc, ← hec]
  generalize (∑ i, Ls i) = L at *
  generalize (∑ i, Ds i 2 * seconds (deltas i)) = e at *
  have hadd : lfAddedError 0 e 0 0 (seconds dt) = 2 * seconds dt * e := by
    unfold lfAddedError
    rw [abs_of_nonneg hh']
    simp
  rw [List.sum_map_add] at main
  simp only [zero_add, hadd, List.map_const', List.sum_replicate, List.length_range, nsmul_eq_mul, abs_of_nonneg hh'] at main
  intro q hq
  obtain ⟨a, ha, hv⟩ := main q hq
  refine ⟨a, ha, fun ix hix => le_trans (hv ix hix) ?_⟩
  have hwq : (0 : ℝ) ≤ w q := by exact_mod_cast hw q
  refine mul_le_mul_of_nonneg_right ?_ hwq
  have hL' : (0 : ℝ) ≤ L := by exact_mod_cast hL
  have he' : (0 : ℝ) ≤ e := by exact_mod_cast he
  have hD2 : (0 : ℝ) ≤ D 2 := by exact_mod_cast hD 2
  have hD3 : (0 : ℝ) ≤ D 3 := by exact_mod_cast hD 3
  have hν0' : (0 : ℝ) ≤ ν := by exact_mod_cast hν0
  have hK : (1 + 2 * (seconds dt : ℝ) * L) ^ n ≤ Real.exp (2 * L * (n * (seconds dt : ℝ))) := by
    have h1 : 1 + 2 * (seconds dt : ℝ) * L ≤ Real.exp (2 * (seconds dt : ℝ) * L) := by
      have := Real.add_one_le_exp (2 * (seconds dt : ℝ) * L)
      linarith
    refine le_trans (pow_le_pow_left₀ (by positivity) h1 n) (le_of_eq ?_)
    rw [← Real.exp_nat_mul]
    congr 1
    ring
  obtain ⟨n, rfl⟩ : ∃ m, n = m + 1 := ⟨n - 1, by omega⟩
  have hsum : ((List.range (n + 1)).map fun i => lfStepError ν D (seconds dt) i).sum =
      D 2 / 2 * seconds dt ^ 2 + n * (ν * (D 2 / 2 * seconds dt ^ 2) + D 3 / 3 * seconds dt ^ 3) := by
    rw [List.range_succ_eq_map, List.map_cons, List.sum_cons, List.map_map]
    have : (fun i => lfStepError ν D (seconds dt) i) ∘ Nat.succ =
        fun _ => ν * (D 2 / 2 * seconds dt ^ 2) + D 3 / 3 * seconds dt ^ 3 := by
      funext i
      show lfStepError ν D (seconds dt) (i + 1) = _
      unfold lfStepError
      rw [if_neg (by omega), abs_of_nonneg hh']
    rw [this, List.map_const', List.sum_replicate, List.length_range, nsmul_eq_mul]
    unfold lfStepError
    rw [if_pos rfl, abs_of_nonneg hh']
  push_cast at hK
  rw [hsum]
  push_cast
  refine mul_le_mul hK ?_ (by positivity) (le_of_lt (Real.exp_pos _))
  have h1 : (0 : ℝ) ≤ ν * (D 2 / 2 * (seconds dt : ℝ) ^ 2) + D 3 / 3 * (seconds dt : ℝ) ^ 3 := by positivity
  nlinarith

end

/-! ## Non-vacuity -/

theorem Demo.reg_rates : ∀ un b, Demo.reg.parse (un ++ " s^-1") = some b → b.offset = 0 := by
  have key : (Demo.table.all fun x => decide (x.2.offset = 0) || decide (x.1.length < 5)) = true := by decide +kernel
  intro un b hb
  have h1 := Dict.mem_of_get? hb
  rw [List.all_eq_true] at key
  have k1 := key _ h1
  simp only [Bool.or_eq_true, decide_eq_true_eq] at k1
  rcases k1 with h | h
  · exact h
  · rw [String.length_append, show (" s^-1" : String).length = 5 from by decide +kernel] at h
    omega

/-- takes a twentieth of T per second, and says so per second or per day -/
def Demo.halfFades (perDay : Bool) : ProgOver Unit DataArray := fun s x _ =>
  (s, EState.da x "T" >>= fun a =>
    if Dict.get? a.attrs "units" = some "K" then
      .ok ([("T", { a.smul (if perDay then -4320 else -1 / 20) with
        attrs := [("units", if perDay then "K day^-1" else "K s^-1")] })], [])
    else .error .valueError)

/-- half of `7 exp(-t/10)` -/
noncomputable def Demo.halfFading : Trajectory := fun j q ix t => Demo.fading j q ix t / 2

theorem Demo.halves (dt : Int) : PartsOf Demo.reg Demo.origin (fun _ => 1) (· = "T") (Set.Ici 0) Demo.fading Demo.halfFades dt
    (fun _ => 1 / 20) (fun _ => (· = "T")) (fun _ => Demo.halfFading) (fun _ j => 7 / 2 * (1 / 10) ^ j) where
  smooth := fun _ => by
    have h := Demo.fading_smooth 1
    refine ⟨fun j hj q hq ix hix t ht => (h.deriv j hj q hq ix hix t ht).div_const 2, fun j hj q hq ix hix t ht => ?_⟩
    have := h.bound j hj q hq ix hix t ht
    unfold Demo.halfFading
    rw [abs_div, abs_two]
    push_cast at this ⊢
    linarith
  bounds := fun _ j => by positivity
  lipschitz := fun _ => by norm_num
  others := fun _ q hq hn => absurd hq hn
  cover := fun q hq => ⟨true, hq⟩
  sum := fun q _ ix _ t _ => by
    rw [Fintype.sum_bool]
    unfold Demo.halfFading
    ring
  returns := by
    intro i s x r hr
    obtain ⟨a, _, hr⟩ := Exc.bind_ok_iff.1 hr
    split at hr
    · cases hr
      refine ⟨by simp [Dict.keys], fun q v hv => ?_, fun q hq => by rw [hq]; simp [Dict.keys]⟩
      rw [Dict.get?_cons] at hv
      split at hv
      · cases hv
        cases i
        · obtain ⟨b, hb, _, ho⟩ := Demo.parse_of_test (s := "K s^-1") (k := 1) (by decide +kernel)
          exact ⟨"K s^-1", b, rfl, hb, ho⟩
        · obtain ⟨b, hb, _, ho⟩ := Demo.parse_of_test (s := "K day^-1") (k := 1 / 86400) (by decide +kernel)
          exact ⟨"K day^-1", b, rfl, hb, ho⟩
      · cases hv
    · cases hr
  rhs := by
    intro i s x r t now E hnow hJ hr ht hE hx q hq
    subst hq
    have hr0 := hr
    obtain ⟨a, ha, hr⟩ := Exc.bind_ok_iff.1 hr
    split at hr
    · rename_i hK
      cases hr
      refine ⟨by rw [convertTendenciesO_keys ht]; simp [Dict.keys], fun ix hix => ?_⟩
      obtain ⟨a', ha', hn⟩ := hx "T" rfl
      rw [EState.da_ok.1 ha] at ha'
      cases ha'
      have hv : tval t "T" ix = -1 / 20 * a.at' ix := by
        obtain ⟨hc, hcv⟩ := converts_of_ok ht
        obtain ⟨z, hz⟩ := hc "T" _ (cons_self _ _ _)
        rw [hcv]
        unfold cval
        rw [cons_self]
        dsimp only at hz ⊢
        rw [hz]
        dsimp only
        unfold convertTendencyO at hz
        rw [if_pos (show (dataArrayArith Demo.reg).isContainer _ = true from rfl)] at hz
        have hu : Dict.get? ((dataArrayArith Demo.reg).attrs ({ a.smul (if i then -4320 else -1 / 20) with
            attrs := [("units", if i then "K day^-1" else "K s^-1")] } : DataArray)) "units" =
            some (if i then "K day^-1" else "K s^-1") := rfl
        rw [hu] at hz
        dsimp only at hz
        rw [ha, Exc.ok_bind, show Dict.get ((dataArrayArith Demo.reg).attrs a) "units" = .ok "K" from Dict.get_eq_ok.2 hK,
          Exc.ok_bind] at hz
        have hz' : DataArray.toUnits Demo.reg { a.smul (if i then -4320 else -1 / 20) with
            attrs := [("units", if i then "K day^-1" else "K s^-1")] } ("K" ++ " s^-1") = .ok z := hz
        obtain ⟨own, ua, ub, e1, e2, e3, _, e5⟩ := toUnits_at Demo.reg_faithful hz' ix
        obtain ⟨b, hb, hb1, hb0⟩ := Demo.parse_of_test (s := "K" ++ " s^-1") (k := 1) (by decide +kernel)
        rw [hb] at e3
        cases e3
        have hat : ({ a.smul (if i then -4320 else -1 / 20) with
            attrs := [("units", if i then "K day^-1" else "K s^-1")] } : DataArray).at' ix =
            (if i then -4320 else -1 / 20) * a.at' ix := rfl
        rw [hat, hb1, hb0] at e5
        cases e1
        cases i
        · obtain ⟨c, hc, hc1, hc0⟩ := Demo.parse_of_test (s := "K s^-1") (k := 1) (by decide +kernel)
          have e2' : Demo.reg.parse "K s^-1" = some ua := e2
          rw [hc] at e2'
          cases e2'
          rw [hc1, hc0] at e5
          simp only [Bool.false_eq_true, if_false] at e5
          linarith
        · obtain ⟨c, hc, hc1, hc0⟩ := Demo.parse_of_test (s := "K day^-1") (k := 1 / 86400) (by decide +kernel)
          have e2' : Demo.reg.parse "K day^-1" = some ua := e2
          rw [hc] at e2'
          cases e2'
          rw [hc1, hc0] at e5
          simp only [if_true] at e5
          linarith
      rw [hv]
      have := hn ix hix
      have e : ((-1 / 20 * a.at' ix : Rat) : ℝ) - Demo.halfFading 1 "T" ix (seconds now) =
          -1 / 20 * ((a.at' ix : ℝ) - Demo.fading 0 "T" ix (seconds now)) := by
        unfold Demo.halfFading Demo.fading
        push_cast
        ring
      rw [e, abs_mul]
      rw [show |(-1 / 20 : ℝ)| = 1 / 20 by norm_num [abs_of_neg]]
      push_cast at this ⊢
      linarith
    · cases hr

/-- two steps of 1 s: the first component is updated in each, the other (per day) in the first only -/
example : Exc.test (runOver (tsCallO (dataArrayArith Demo.reg) [] [] "" false (abCallO (dataArrayArith Demo.reg)
      (compositeO (dataArrayArith Demo.reg) ([false, true].map (updatingSlot (fun _ => false) Demo.halfFades)))))
      (Demo.ticks 1000000) 1000000 2 { order := 1 } ((), fun i => { delta := if i then 2000000 else 0 }) (Demo.scalarAt 7 0)).2.2
    (fun x => Exc.test (EState.da x "T") (fun a => a.at' (fun _ => 0) == 7 - 7 / 10 - 63 / 200 - 7 / 20)) = true := by
  decide +kernel

/-- a run of any number of steps in which the second component is updated every `delta` -/
example (dt delta : Int) (hdt : 0 ≤ dt) (hdelta : 0 ≤ delta) (n : Nat) (hn : 1 ≤ n) {abf : ABOver DataArray}
    {sf : Unit × (Bool → UFW (Dict DataArray × Dict DataArray))} {xf : EState DataArray}
    (h : runOver (tsCallO (dataArrayArith Demo.reg) [] [] "" false (abCallO (dataArrayArith Demo.reg)
      (compositeO (dataArrayArith Demo.reg) ([false, true].map (updatingSlot (fun _ => false) Demo.halfFades)))))
      (Demo.ticks dt) dt n { order := 2 } ((), fun i => { delta := if i then delta else 0 }) (Demo.scalarAt 7 0) =
        (abf, sf, .ok xf)) :
    ∃ a, Dict.get? xf "T" = some (.da a) ∧ |(a.at' (fun _ => 0) : ℝ) - 7 * Real.exp (-((n * (seconds dt : ℝ)) / 10))| ≤
      Real.exp (2 / 3 * (n * (seconds dt : ℝ))) * ((7 / 200 + 7 / 2400 * (n * (seconds dt : ℝ))) * (seconds dt : ℝ) ^ 2 +
        7 / 30 * (n * (seconds dt : ℝ)) * (seconds delta : ℝ)) := by
  have hz : ((seconds 0 : Rat) : ℝ) = 0 := by
    rw [show seconds 0 = 0 by decide +kernel]
    norm_num
  have hs0 : (0 : ℝ) ≤ (seconds dt : ℝ) := seconds_nonneg hdt
  obtain ⟨a, ha, hv⟩ := ab_run_each (deltas := fun i => if i then delta else 0) (Or.inr rfl) (Demo.halves dt) Demo.reg_faithful
    Demo.reg_rates (fun _ => by norm_num) (convex_Ici 0)
    (Demo.fading_smooth 2) (fun j => by positivity) (fun _ => false) [] [] "" false (b := Demo.ticks dt) hdt
    (fun i => by cases i <;> simp [hdelta])
    (fun d x q hq => Demo.ticks_get dt d x (by rw [hq]; decide))
    (fun d x q a ha => by
      by_cases hq : q = "time"
      · refine ⟨a, ?_, rfl⟩
        unfold Demo.ticks EState.clock
        rw [← hq, ha]
        exact ha
      · exact ⟨a, by rw [Demo.ticks_get dt d x hq, ha], rfl⟩)
    (fun d x c hc => by
      unfold Demo.ticks
      rw [hc]
      unfold EState.clock
      rw [Dict.get?_set_self]) n hn () (Demo.scalarAt 7 0) (now := 0) rfl (is := [false, true]) (by decide) (by decide)
    (fun i _ => by
      show (0 : ℝ) ≤ (seconds 0 : ℝ) + i * (seconds dt : ℝ)
      rw [hz]
      positivity)
    (by
      rw [hz]
      intro q hq
      obtain ⟨a, ha, hv⟩ := Demo.fading_starts q hq
      refine ⟨a, ?_, hv⟩
      cases hq
      exact ha) h "T" rfl
  refine ⟨a, ha, ?_⟩
  have := hv (fun _ => 0) rfl
  rw [hz, zero_add] at this
  unfold Demo.fading at this
  rw [pow_zero, one_mul] at this
  refine le_trans this (le_of_eq ?_)
  rw [Fintype.sum_bool, Fintype.sum_bool, if_neg (by norm_num)]
  simp only [if_true, Bool.false_eq_true, if_false]
  rw [hz]
  push_cast
  rw [show (20 / 3 * (1 / 20 + 1 / 20) * (n * (seconds dt : ℝ)) : ℝ) = 2 / 3 * (n * (seconds dt : ℝ)) by ring]
  ring

end Verif

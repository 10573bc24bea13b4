import Verif.Lemmas.TimeSteppers
import Verif.Props.Units
import Verif.Model.Wrappers
import Mathlib.Tactic.FieldSimp
/-!
# C44: TimeDifferencingWrapper
-/

namespace Verif

/-- What pint does with a unit per second: the scale of the unit, without its offset
(a rate of change has no zero point). -/
def Registry.RateUnits (R : Registry) : Prop :=
  ∀ u a r, R.parse u = some a → (R.parse (perSecond u) = some r ∨ R.parse (u ++ " s^-1") = some r) →
    r.scale = a.scale ∧ r.offset = 0

/-- The entries of the loop. -/
theorem differenceLoop_ok {R : Registry} {outProps : PropDict} {state : State} {dt : Int} {N : State}
    (hN : (Dict.keys N).Nodup) {out t : Dict DataArray} (h : differenceLoop R outProps state dt N out = .ok t) :
    (∀ n a, Dict.get? N n = some (.da a) → n ∈ Dict.keys outProps →
      ∃ v, t.get? n = some v ∧ differencedTendency R outProps state dt n a = .ok v) ∧
    (∀ n, (∀ a, Dict.get? N n = some (.da a) → n ∉ Dict.keys outProps) → t.get? n = out.get? n) := by
  induction N generalizing out with
  | nil =>
    injection h with h
    subst h
    exact ⟨fun n a h => (by cases h), fun _ _ => rfl⟩
  | cons kv N ih =>
    obtain ⟨k, v⟩ := kv
    simp only [Dict.keys, List.map_cons, List.nodup_cons] at hN
    have hkN : Dict.get? N k = none := (Dict.get?_eq_none_iff _ _).2 hN.1
    have skip : differenceLoop R outProps state dt N out = .ok t →
        (∀ a, v = .da a → k ∉ Dict.keys outProps) →
        (∀ n a, Dict.get? ((k, v) :: N) n = some (.da a) → n ∈ Dict.keys outProps →
          ∃ v, t.get? n = some v ∧ differencedTendency R outProps state dt n a = .ok v) ∧
        (∀ n, (∀ a, Dict.get? ((k, v) :: N) n = some (.da a) → n ∉ Dict.keys outProps) → t.get? n = out.get? n) := by
      intro h hv
      obtain ⟨i1, i2⟩ := ih hN.2 h
      refine ⟨fun n a hn ho => ?_, fun n hn => i2 n fun a ha => ?_⟩
      · rw [Dict.get?_cons] at hn
        by_cases hk : k = n
        · subst hk
          rw [if_pos rfl] at hn
          injection hn with hn
          exact absurd ho (hv a hn)
        · rw [if_neg hk] at hn
          exact i1 n a hn ho
      · apply hn a
        rw [Dict.get?_cons]
        by_cases hk : k = n
        · subst hk
          rw [hkN] at ha
          cases ha
        · rw [if_neg hk]
          exact ha
    cases v with
    | time τ =>
      unfold differenceLoop at h
      split at h
      · cases h
      · exact skip h (fun a h => (by cases h))
    | da a =>
      unfold differenceLoop at h
      split at h
      · rename_i ho
        obtain ⟨w, hw, h⟩ := Exc.bind_ok_iff.1 h
        obtain ⟨i1, i2⟩ := ih hN.2 h
        refine ⟨fun n b hn hno => ?_, fun n hn => ?_⟩
        · rw [Dict.get?_cons] at hn
          by_cases hk : k = n
          · subst hk
            rw [if_pos rfl] at hn
            injection hn with hn
            injection hn with hn
            subst hn
            refine ⟨w, ?_, hw⟩
            rw [i2 k (fun b hb => by rw [hkN] at hb; cases hb), Dict.get?_set_self]
          · rw [if_neg hk] at hn
            exact i1 n b hn hno
        · by_cases hk : k = n
          · subst hk
            exact absurd ho (hn a (by rw [Dict.get?_cons, if_pos rfl]))
          · rw [i2 n (fun b hb => hn b (by rw [Dict.get?_cons, if_neg hk]; exact hb)), Dict.get?_set_ne _ _ hk]
      · rename_i ho
        exact skip h (fun _ _ => ho)

/-- One difference, in words: with `x` the state's value in units `u0` and `a` the new
value in units `u`, the tendency is declared per second and is the rate from one to the
other. -/
theorem differencedTendency_ok {R : Registry} (hF : R.Faithful) (hrate : R.RateUnits) {outProps : PropDict}
    {state : State} {dt : Int} (hdt : dt ≠ 0) {n : String} {a v : DataArray}
    (h : differencedTendency R outProps state dt n a = .ok v) :
    ∃ x u0 u p d uv sx sa sv, Dict.get? state n = some (.da x) ∧ x.attrs.get? "units" = some u0 ∧
      a.attrs.get? "units" = some u ∧ Dict.get? outProps n = some p ∧ p.units = some d ∧
      v.attrs.get? "units" = some uv ∧ SameUnit R uv (d ++ " s^-1") ∧
      R.parse u0 = some sx ∧ R.parse u = some sa ∧ R.parse uv = some sv ∧ sx.dim = sa.dim ∧
      ∀ ix, (x.at' ix * sx.scale + sx.offset) + (v.at' ix * sv.scale + sv.offset) * seconds dt =
        a.at' ix * sa.scale + sa.offset := by
  unfold differencedTendency at h
  obtain ⟨_, hn, h⟩ := Exc.bind_ok_iff.1 h
  obtain ⟨x, hx, h⟩ := Exc.bind_ok_iff.1 h
  obtain ⟨u, hu, h⟩ := Exc.bind_ok_iff.1 h
  obtain ⟨x', hx', h⟩ := Exc.bind_ok_iff.1 h
  obtain ⟨d, hd, h⟩ := Exc.bind_ok_iff.1 h
  obtain ⟨p, hp, h⟩ := Exc.bind_ok_iff.1 h
  obtain ⟨dv, hdv, h⟩ := Exc.bind_ok_iff.1 h
  have hp' : p.units = some dv := by
    cases hpu : p.units with
    | none => rw [hpu] at hdv; cases hdv
    | some w => rw [hpu] at hdv; injection hdv with hdv; rw [hdv]
  obtain ⟨q1, -, -, u0, ux', o1, o2, ⟨su', sa, hsu', hsa, hdim, hsc, hoff⟩, o4⟩ := to_units_preserves_quantity R hF x x' u hx'
  obtain ⟨r1, -, -, w0, uv, w1, w2, w3, w4⟩ := to_units_preserves_quantity R hF _ v _ h
  have hw0 : w0 = perSecond u := by
    have : Dict.get? ([("units", perSecond u)] : Dict String) "units" = some w0 := w1
    rw [Dict.get?_cons, if_pos rfl] at this
    injection this with this
    exact this.symm
  subst hw0
  obtain ⟨s1, sx, hs1, hsx, hdim1, -⟩ := o4 []
  obtain ⟨sv, sr, hsv, hsr, -, -⟩ := w4 []
  obtain ⟨hrs, hro⟩ := hrate u sa sr hsa (.inl hsr)
  rw [hsu'] at hs1
  injection hs1 with hs1
  subst hs1
  refine ⟨x, u0, u, p, dv, uv, sx, sa, sv, State.da_ok.1 hx, o1, Dict.get_eq_ok.1 hu, Dict.get_eq_ok.1 hp, hp', w2,
    w3, hsx, hsa, hsv, hdim1.symm.trans hdim, fun ix => ?_⟩
  obtain ⟨y1, y2, hy1, hy2, -, e1⟩ := o4 (x.dims.map ix)
  obtain ⟨z1, z2, hz1, hz2, -, e2⟩ := w4 (d.dims.map ix)
  rw [hsu'] at hy1; injection hy1 with hy1; subst hy1
  rw [hsx] at hy2; injection hy2 with hy2; subst hy2
  rw [hsv] at hz1; injection hz1 with hz1; subst hz1
  rw [hsr] at hz2; injection hz2 with hz2; subst hz2
  have hd' := (sub_ok hd).2.2 ix
  have hxa : x'.at' ix = x'.arr.get (x.dims.map ix) := by unfold DataArray.at'; rw [q1]
  have hva : v.at' ix = v.arr.get (d.dims.map ix) := by unfold DataArray.at'; rw [r1]
  have hda : (NDArray.map (fun r => r / seconds dt) d.arr).get (d.dims.map ix) = d.at' ix / seconds dt := rfl
  rw [hva]
  dsimp only at e2
  rw [e2, hda, hd', hxa, hro, hrs, add_zero]
  have e1' : x.at' ix * sx.scale + sx.offset = x'.arr.get (x.dims.map ix) * sa.scale + sa.offset := by
    rw [← hsc, ← hoff, e1]
    rfl
  rw [e1']
  have hs : seconds dt ≠ 0 := by
    exact div_ne_zero (Int.cast_ne_zero.2 hdt) (by norm_num)
  field_simp
  ring

/-- **C44.**  What TimeDifferencingWrapper returns: the diagnostics of the stepper, and
a tendency for exactly the output quantities the stepper gave, in the declared units
per second, such that the state's value plus the tendency times the timestep is the new
value (all in base units). -/
theorem time_differencing_tendencies {σ : Type} {R : Registry} (hF : R.Faithful) (hrate : R.RateUnits)
    {outProps : PropDict} {stepper : σ → State → Int → σ × Except Err (Dict DataArray × State)} {s s' : σ}
    {state : State} {dt : Int} (hdt : dt ≠ 0) {t diag : Dict DataArray}
    (hN : ∀ r, (stepper s state dt).2 = .ok r → (Dict.keys r.2).Nodup)
    (h : differencingCall R outProps stepper s state dt = (s', .ok (t, diag))) :
    ∃ N, stepper s state dt = (s', .ok (diag, N)) ∧
      (∀ n, n ∈ Dict.keys t ↔ n ∈ Dict.keys outProps ∧ ∃ a, Dict.get? N n = some (.da a)) ∧
      ∀ n a, Dict.get? N n = some (.da a) → n ∈ Dict.keys outProps →
        ∃ v x u0 u p d uv sx sa sv, t.get? n = some v ∧
          Dict.get? state n = some (.da x) ∧ x.attrs.get? "units" = some u0 ∧
          a.attrs.get? "units" = some u ∧ Dict.get? outProps n = some p ∧ p.units = some d ∧
          v.attrs.get? "units" = some uv ∧ SameUnit R uv (d ++ " s^-1") ∧
          R.parse u0 = some sx ∧ R.parse u = some sa ∧ R.parse uv = some sv ∧ sx.dim = sa.dim ∧
          ∀ ix, (x.at' ix * sx.scale + sx.offset) + (v.at' ix * sv.scale + sv.offset) * seconds dt =
            a.at' ix * sa.scale + sa.offset := by
  unfold differencingCall at h
  injection h with h1 h2
  obtain ⟨⟨dg, N⟩, hr, h2⟩ := Exc.bind_ok_iff.1 h2
  obtain ⟨t', ht, h2⟩ := Exc.bind_ok_iff.1 h2
  injection h2 with h2
  injection h2 with h3 h4
  subst h3 h4
  obtain ⟨i1, i2⟩ := differenceLoop_ok (hN _ hr) ht
  refine ⟨N, Prod.ext h1 hr, ?_, ?_⟩
  · intro n
    constructor
    · intro hn
      by_contra hc
      have := i2 n (fun a ha ho => hc ⟨ho, a, ha⟩)
      have hn' := (Dict.get?_isSome_iff _ _).2 hn
      rw [this] at hn'
      cases hn'
    · rintro ⟨ho, a, ha⟩
      obtain ⟨v, hv, -⟩ := i1 n a ha ho
      exact Dict.mem_keys_of_get? hv
  · intro n a ha ho
    obtain ⟨v, hv, hd⟩ := i1 n a ha ho
    obtain ⟨x, u0, u, p, d, uv, sx, sa, sv, rest⟩ := differencedTendency_ok hF hrate hdt hd
    exact ⟨v, x, u0, u, p, d, uv, sx, sa, sv, hv, rest⟩

/-- **C44.**  A step of sympl's forward Euler (AdamsBashforth of order 1) with the
tendencies of TimeDifferencingWrapper(stepper): every output quantity gets the value
the stepper itself gave it (in the units of the state), every other quantity keeps its
value, and the diagnostics are the stepper's. -/
theorem time_differencing_euler {σ : Type} {R : Registry} (hF : R.Faithful) (hrate : R.RateUnits)
    {outProps : PropDict} {stepper : σ → State → Int → σ × Except Err (Dict DataArray × State)} {s s' : σ}
    {state : State} {dt : Int} (hdt : dt ≠ 0) {ab : AB} {diag : Dict DataArray} {new : State}
    (hN : ∀ r, (stepper s state dt).2 = .ok r → (Dict.keys r.2).Nodup)
    (h : AB.call R (differencingCall R outProps stepper) { order := 1 } s state dt = (ab, s', .ok (diag, new))) :
    ∃ N, stepper s state dt = (s', .ok (diag, N)) ∧
      (∀ n a, Dict.get? N n = some (.da a) → n ∈ Dict.keys outProps →
        ∃ b u0 u, Dict.get? new n = some (.da b) ∧ b.attrs.get? "units" = some u0 ∧
          a.attrs.get? "units" = some u ∧ ∀ ix, SamePhysical R u0 (b.at' ix) u (a.at' ix)) ∧
      ∀ n, (n ∈ Dict.keys outProps → ∀ a, Dict.get? N n ≠ some (.da a)) →
        Dict.get? new n = Dict.get? state n := by
  unfold AB.call at h
  rw [if_pos (.inl rfl)] at h
  dsimp only at h
  rcases hc : differencingCall R outProps stepper s state dt with ⟨s1, r⟩
  rw [hc] at h
  dsimp only at h
  cases r with
  | error e => dsimp only at h; cases h
  | ok r =>
    obtain ⟨t, dg⟩ := r
    dsimp only at h
    cases ht : convertTendencies R state t with
    | error e => rw [ht] at h; dsimp only at h; cases h
    | ok t' =>
      rw [ht] at h
      dsimp only at h
      have hps : performStep 1 ([] ++ [t']) state dt = stepEuler state t' dt := rfl
      rw [hps] at h
      cases he : stepEuler state t' dt with
      | error e => rw [he] at h; dsimp only at h; cases h
      | ok e =>
        rw [he] at h
        dsimp only at h
        injection h with _ h
        injection h with h1 h2
        injection h2 with h2
        injection h2 with h3 h4
        subst h1 h3 h4
        obtain ⟨N, hst, hkeys, hval⟩ := time_differencing_tendencies hF hrate hdt hN hc
        obtain ⟨c1, c2⟩ := convertTendencies_ok ht
        obtain ⟨k1, k2⟩ := stepKeys_ok he
        obtain ⟨-, u2, u3⟩ := copyUntouched_spec state e
        refine ⟨N, hst, ?_, ?_⟩
        · intro n a ha ho
          obtain ⟨v, x, u0, u, p, d, uv, sx, sa, sv, hv, hx, hu0, hu, -, -, huv, -, hsx, hsa, hsv, hdim, hix⟩ :=
            hval n a ha ho
          obtain ⟨v', hv', hconv⟩ := c2 n v hv
          have hnk : n ∈ Dict.keys t' := Dict.mem_keys_of_get? hv'
          obtain ⟨b, hb, hgb⟩ := k2 n hnk
          have hne : n ∈ Dict.keys e := Dict.mem_keys_of_get? hgb
          rw [State.da_ok.2 hx, Exc.ok_bind, Dict.get_eq_ok.2 hv', Exc.ok_bind] at hb
          obtain ⟨b1, -, b3⟩ := add_ok hb
          refine ⟨b, u0, u, (u2 n hne).trans hgb, by rw [b1]; exact hu0, hu, fun ix => ?_⟩
          unfold convertTendency at hconv
          rw [huv] at hconv
          dsimp only at hconv
          rw [State.da_ok.2 hx, Exc.ok_bind, Dict.get_eq_ok.2 hu0, Exc.ok_bind] at hconv
          obtain ⟨q1, -, -, w0, w1, o1, o2, ⟨r1, r2, hr1, hr2, -, hsc, hoff⟩, o4⟩ :=
            to_units_preserves_quantity R hF v v' _ hconv
          rw [huv] at o1; injection o1 with o1; subst o1
          obtain ⟨m1, m2, hm1, hm2, -, e2⟩ := o4 (v.dims.map ix)
          rw [hr1] at hm1; injection hm1 with hm1; subst hm1
          rw [hsv] at hm2; injection hm2 with hm2; subst hm2
          obtain ⟨g1, g2⟩ := hrate u0 sx r2 hsx (.inr hr2)
          refine ⟨sx, sa, hsx, hsa, hdim, ?_⟩
          have hva : v'.at' ix = v'.arr.get (v.dims.map ix) := by unfold DataArray.at'; rw [q1]
          have e3 : v'.at' ix * sx.scale = v.at' ix * sv.scale + sv.offset := by
            rw [hoff, g2, add_zero, hsc, g1, ← hva] at e2
            exact e2
          rw [b3, smul_at, ← hix ix, ← e3]
          ring
        · intro n hn
          apply u3
          rw [k1, c1, hkeys]
          rintro ⟨ho, a, ha⟩
          exact hn ho a ha

/-- **C44.**  An output quantity that is not in the state is refused with
RuntimeError. -/
theorem time_differencing_missing {σ : Type} {R : Registry} {outProps : PropDict}
    {stepper : σ → State → Int → σ × Except Err (Dict DataArray × State)} {s : σ} {state : State} {dt : Int}
    {diag : Dict DataArray} {n : String} {a : DataArray} {N : State}
    (h : (stepper s state dt).2 = .ok (diag, (n, .da a) :: N)) (hn : n ∈ Dict.keys outProps)
    (hs : n ∉ Dict.keys state) :
    (differencingCall R outProps stepper s state dt).2 = .error .runtimeError := by
  unfold differencingCall
  dsimp only
  rw [h, Exc.ok_bind]
  unfold differenceLoop
  rw [if_pos hn]
  unfold differencedTendency
  rw [if_neg hs]
  rfl

/-- **C44.**  The declared tendency properties: each output quantity, with its units
per second. -/
theorem time_differencing_properties {outProps tp : PropDict} (h : differencingProps outProps = .ok tp) :
    Dict.keys tp = Dict.keys outProps ∧
    ∀ n p, Dict.get? outProps n = some p → ∃ u p', p.units = some u ∧ Dict.get? tp n = some p' ∧
      p'.units = some (u ++ " s^-1") ∧ p'.dims = p.dims ∧ p'.aliasName = p.aliasName := by
  unfold differencingProps at h
  induction outProps generalizing tp with
  | nil =>
    rw [List.mapM_nil] at h
    injection h with h
    subst h
    exact ⟨rfl, fun n p h => (by cases h)⟩
  | cons kv d ih =>
    obtain ⟨k, p0⟩ := kv
    rw [List.mapM_cons] at h
    obtain ⟨kv', hk, h⟩ := Exc.bind_ok_iff.1 h
    obtain ⟨rest, hr, h⟩ := Exc.bind_ok_iff.1 h
    injection h with h
    subst h
    obtain ⟨i1, i2⟩ := ih hr
    dsimp only at hk
    cases hu : p0.units with
    | none => rw [hu] at hk; cases hk
    | some u =>
      rw [hu] at hk
      injection hk with hk
      subst hk
      refine ⟨congrArg (k :: ·) i1, fun n p hp => ?_⟩
      rw [Dict.get?_cons] at hp
      by_cases hkn : k = n
      · subst hkn
        rw [if_pos rfl] at hp
        injection hp with hp
        subst hp
        exact ⟨u, { p0 with units := some (u ++ " s^-1") }, hu, by rw [Dict.get?_cons, if_pos rfl], rfl, rfl, rfl⟩
      · rw [if_neg hkn] at hp
        obtain ⟨u', p', g1, g2, g3⟩ := i2 n p hp
        exact ⟨u', p', g1, by rw [Dict.get?_cons, if_neg hkn]; exact g2, g3⟩

/-! ## Example -/

namespace Demo

/-- The demonstration registry has scale 1000 for `km s^-1` etc. -/
theorem reg_rateUnits : reg.RateUnits := by
  have key : (table.all fun x => table.all fun r =>
      !(decide (r.1 = perSecond x.1) || decide (r.1 = x.1 ++ " s^-1")) ||
      (decide (r.2.scale = x.2.scale) && decide (r.2.offset = 0))) = true := by
    decide +kernel
  intro u a r ha hr
  rw [List.all_eq_true] at key
  have k1 := key _ (Dict.mem_of_get? ha)
  rw [List.all_eq_true] at k1
  rcases hr with hr | hr
  · have k2 := k1 _ (Dict.mem_of_get? hr)
    simpa using k2
  · have k2 := k1 _ (Dict.mem_of_get? hr)
    simpa using k2

/-- `q` in km in the state, in m in the new state, declared in km. -/
def tdState : State := [("time", .time 0), ("q", .da ⟨["x"], ⟨[2], fun i => if i = [0] then 1 else 2⟩, [("units", "km")]⟩)]

def tdNew : State := [("time", .time 5), ("q", .da ⟨["x"], ⟨[2], fun i => if i = [0] then 3000 else 5000⟩, [("units", "m")]⟩),
  ("other", .da ⟨[], ⟨[], fun _ => 7⟩, [("units", "m")]⟩)]

def tdProps : PropDict := [("q", { dims := some ["x"], units := some "km" })]

def tdStepper : Unit → State → Int → Unit × Except Err (Dict DataArray × State) :=
  fun _ _ _ => ((), .ok ([], tdNew))

end Demo

open Demo in
/-- Over 2 s the tendency is 1 and 3/2 km/s; an Euler step gives 3 and 5 km. -/
example : ((match (differencingCall reg tdProps tdStepper () tdState 2000000).2 with
    | .ok ([("q", t)], []) => t.attrs == [("units", "km s^-1")] && t.arr.get [0] == 1 && t.arr.get [1] == 3 / 2
    | _ => false) &&
    (match (AB.call reg (differencingCall reg tdProps tdStepper) { order := 1 } () tdState 2000000).2.2 with
    | .ok ([], new) =>
      (match Dict.get? new "q" with
      | some (.da b) => b.attrs == [("units", "km")] && b.arr.get [0] == 3 && b.arr.get [1] == 5
      | _ => false) && (Dict.get? new "other").isNone
    | _ => false)) = true := by decide +kernel

end Verif

import Verif.Model.Basic
import Verif.Props.RestoreArrays
import Verif.Props.InputArrays
import Verif.Props.Components
import Verif.Lemmas.ComponentCalls
import Verif.Lemmas.StepperDiff
/-!
# C57 – C59: the basic components
-/

namespace Verif

theorem rebuilt_ok {R : Registry} {g0 g1 : Tracers} {c : Class} {tid : Bool} {name : String} {i : Inst}
    (hk : c.kind = .tendency) (ht : c.usesTracers = false) (h : constructRebuilt R g0 c tid name = (g1, .ok i)) :
    i.packer = none ∧ i.name = name ∧ i.tid = tid ∧
      i.ignored = if tid then c.outProps.keys.map (tendencyName · name) else [] := by
  have h' : construct R g0 c tid name = (g1, (construct R g0 c tid name).2.1, .ok i) := by
    unfold constructRebuilt at h
    rw [Prod.mk.injEq] at h
    exact Prod.ext h.1 (Prod.ext rfl h.2)
  obtain ⟨-, h1, h2, h3, h4, h5⟩ := construct_ok h'
  have hu : (construct R g0 c tid name).2.1.usesTracers = false := by
    cases htid : tid with
    | false =>
      rw [htid] at h3
      rw [(h3 rfl).1]
      exact ht
    | true =>
      rw [htid] at h4
      have e := insertProps_kind c name
      rw [h4 rfl] at e
      rw [e.2.2.1]
      exact ht
  refine ⟨?_, h1, h2, ?_⟩
  · unfold makePacker at h5
    rw [if_neg (by rw [hu]; simp), Prod.mk.injEq] at h5
    have h6 := h5.2
    injection h6 with h6
    exact h6.symm
  · cases tid with
    | false => exact (h3 rfl).2
    | true => exact (insertProps_tendency (.inl hk) (h4 rfl)).2.1

/-! ## C57 -/

theorem equilibrium_ne (q : String) : equilibriumName q ≠ q := by
  intro h
  have := congrArg (fun s => s.toList.length) h
  simp [equilibriumName, String.toList_append] at this
  omega

theorem timescale_ne (q : String) : timescaleName q ≠ q := by
  intro h
  have := congrArg (fun s => s.toList.length) h
  simp [timescaleName, String.toList_append] at this

theorem equilibrium_timescale (q : String) : equilibriumName q ≠ timescaleName q := by
  intro h
  have := congrArg (fun s => s.toList.length) h
  simp [equilibriumName, timescaleName, String.toList_append] at this

/-- The unit per second: pint's meaning of the quotient, with the second as a unit without
offset. -/
def QuotientOk (R : Registry) (quotient : String → String) (units : String) : Prop :=
  ∃ r u s, R.parse (quotient units) = some r ∧ R.parse units = some u ∧ R.parse "s" = some s ∧
    r.scale * s.scale = u.scale ∧ r.offset = 0 ∧ s.offset = 0

/-- **C57.**  For every state in which the three inputs exist, in any units that convert
and with any dims of which the shared ones have the same lengths: the call returns one
tendency, its dims are those that any of the inputs has, with their lengths, and at every
named coordinate, with every value in base units,
tendency * timescale = equilibrium - value (for a timescale other than 0). -/
theorem relaxation_tendency {σ : Type} (R : Registry) (hR : R.Faithful) (quotient : String → String) (g0 g1 g : Tracers)
    (q units name : String) (tid : Bool) (c : Class) (i : Inst) (hq : QuotientOk R quotient units)
    (hc : relaxClass R quotient q units = .ok c) (hmade : constructRebuilt R g0 c tid name = (g1, .ok i))
    (state : State) (hwf : state.WF) (hsf : state.StarFree) (time : Val) (ht : Dict.get? state "time" = some time)
    (hv : ValidInputs R state (relaxInputs q units)) (x : σ) :
    ∃ tend diag da v e tau, callTendency R g c i (relaxCall q) x state = (x, .ok (tend, diag)) ∧
      (∀ k, k ∈ tend.keys ↔ k = q) ∧ tend.get? q = some da ∧ da.attrs = [("units", quotient units)] ∧
      Dict.get? state q = some (.da v) ∧ Dict.get? state ("equilibrium_" ++ q) = some (.da e) ∧
      Dict.get? state (q ++ "_relaxation_timescale") = some (.da tau) ∧
      (∀ d, d ∈ da.dims ↔ d ∈ v.dims ∨ d ∈ e.dims ∨ d ∈ tau.dims) ∧ da.dims.Nodup ∧
      (∃ L : String → Nat, da.arr.shape = da.dims.map L ∧ (∀ d ∈ v.dims, L d = v.len d) ∧
        (∀ d ∈ e.dims, L d = e.len d) ∧ ∀ d ∈ tau.dims, L d = tau.len d) ∧
      ∃ r vu eu tu vp ep tp, R.parse (quotient units) = some r ∧ r.offset = 0 ∧
        v.attrs.get? "units" = some vu ∧ R.parse vu = some vp ∧ e.attrs.get? "units" = some eu ∧ R.parse eu = some ep ∧
        tau.attrs.get? "units" = some tu ∧ R.parse tu = some tp ∧
        ∀ ix, da.InBounds ix → tau.at' ix * tp.scale + tp.offset ≠ 0 →
          da.at' ix * r.scale * (tau.at' ix * tp.scale + tp.offset) =
            (e.at' ix * ep.scale + ep.offset) - (v.at' ix * vp.scale + vp.offset) := by
  -- the class
  unfold relaxClass relaxRate at hc
  obtain ⟨rate, hrate, hc⟩ := Exc.bind_ok_iff.1 hc
  injection hc with hc
  obtain ⟨u', -, hrate⟩ := Exc.bind_ok_iff.1 hrate
  split at hrate
  · cases hrate
  obtain ⟨_, -, hrate⟩ := Exc.bind_ok_iff.1 hrate
  injection hrate with hrate
  subst hrate
  subst hc
  obtain ⟨hp, -, -, hig⟩ := rebuilt_ok rfl rfl hmade
  -- the inputs
  have hone : OneStar (relaxInputs q units) := by
    intro kv hkv d hd
    unfold relaxInputs at hkv
    simp only [List.mem_cons, List.not_mem_nil, or_false] at hkv
    rcases hkv with rfl | rfl | rfl <;> (injection hd with hd; subst hd; decide)
  have hkeys : ((relaxInputs q units).map outName).Nodup := by
    show [q, equilibriumName q, timescaleName q].Nodup
    simp [Ne.symm (equilibrium_ne q), Ne.symm (timescale_ne q), equilibrium_timescale q]
  obtain ⟨raw, hraw⟩ := valid_inputs_accepted R hR state (relaxInputs q units) hwf hsf
    (by
      intro kv hkv d hd
      unfold relaxInputs at hkv
      simp only [List.mem_cons, List.not_mem_nil, or_false] at hkv
      rcases hkv with rfl | rfl | rfl <;> (injection hd with hd; subst hd; decide))
    (by
      intro kv hkv ds hds _ d hd hd'
      have e : ds = ["*"] := by
        unfold relaxInputs at hkv
        simp only [List.mem_cons, List.not_mem_nil, or_false] at hkv
        rcases hkv with rfl | rfl | rfl <;> (injection hds with hds; exact hds.symm)
      rw [e, List.mem_singleton] at hd'
      obtain ⟨w, hw, hw1, -⟩ := mem_wildSpec.1 hd
      obtain ⟨kv', -, h1, -⟩ := mem_requested.1 hw
      rw [hd'] at hw1
      exact hsf _ _ h1 hw1) hv
  obtain ⟨L, ⟨hL, -⟩, hall⟩ := inputs_labelled_correctly R hR state _ raw hwf hsf hone hkeys hraw
  obtain ⟨dims, un, v, vu, rv, a1, a2, a3, a4, a5, a6, a7⟩ :=
    hall (q, { dims := some ["*"], units := some units }) (by simp [relaxInputs])
  obtain ⟨dims', un', e, eu, re, b1, b2, b3, b4, b5, b6, b7⟩ :=
    hall (equilibriumName q, { dims := some ["*"], units := some units }) (by simp [relaxInputs])
  obtain ⟨dims'', un'', tau, tu, rt, c1, c2, c3, c4, c5, c6, c7⟩ :=
    hall (timescaleName q, { dims := some ["*"], units := some "s" }) (by simp [relaxInputs])
  dsimp only [outName, Option.getD_none] at a1 a2 a3 a5 b1 b2 b3 b5 c1 c2 c3 c5
  injection a1 with a1
  injection b1 with b1
  injection c1 with c1
  injection a2 with a2
  injection b2 with b2
  injection c2 with c2
  subst a1 b1 c1 a2 b2 c2
  set w := wildSpec (requested state (relaxInputs q units)) with hw
  -- the array
  obtain ⟨diff, hdiff⟩ := zipWith_isOk (f := fun e v => e - v) (a := re) (b := rv) (b6.trans a6.symm)
  obtain ⟨d1, d2⟩ := zipWith_same_shape (b6.trans a6.symm) hdiff
  have hdt : diff.shape = rt.shape := d1.trans (b6.trans c6.symm)
  obtain ⟨ta, hta⟩ := zipWith_isOk (f := fun x t => x / t) (a := diff) (b := rt) hdt
  obtain ⟨t1, t2⟩ := zipWith_same_shape hdt hta
  have hcall : relaxCall q x ⟨raw, time⟩ = (x, .ok ([(q, ta)], [])) := by
    unfold relaxCall
    dsimp only
    rw [Dict.get_eq_ok.2 a5, Exc.ok_bind, Dict.get_eq_ok.2 b5, Exc.ok_bind, Dict.get_eq_ok.2 c5, Exc.ok_bind, hdiff,
      Exc.ok_bind, hta, Exc.ok_bind]
  -- what is restored
  have hreq : ∀ (n : String) (p : QProps) (a : DataArray), (n, p) ∈ relaxInputs q units →
      Dict.get? state n = some (.da a) → p.dims = some ["*"] → (a, ["*"]) ∈ requested state (relaxInputs q units) :=
    fun n p a h1 h2 h3 => mem_requested.2 ⟨_, h1, h2, h3⟩
  have hrv := hreq q { dims := some ["*"], units := some units } v (by simp [relaxInputs]) a3 rfl
  have hre := hreq (equilibriumName q) { dims := some ["*"], units := some units } e (by simp [relaxInputs]) b3 rfl
  have hrt := hreq (timescaleName q) { dims := some ["*"], units := some "s" } tau (by simp [relaxInputs]) c3 rfl
  obtain ⟨tend, htend, hout⟩ := restored_values state (relaxInputs q units)
    [(q, { dims := some ["*"], units := some (quotient units) })] [(q, ta)] [] L hwf (by simp [Dict.keys])
    ⟨R, raw, hraw⟩ hL (by
      intro kv hkv _
      rw [List.mem_singleton] at hkv
      subst hkv
      refine ⟨["*"], quotient units, ta, rfl, rfl, by decide, fun _ => ⟨_, List.mem_cons_self, _, rfl, by simp⟩, ?_, ?_⟩
      · unfold getAliasOrName relaxInputs
        simp [Dict.get?_cons]
      · rw [t1, d1, b6])
  have hkt := restore_keys (by simp [Dict.keys]) htend
  obtain ⟨ds, un, a', da, o1, o2, o3, o4, o5, o6, o7, o8⟩ := hout _ List.mem_cons_self (by simp)
  have o1' : ds = ["*"] := by
    have : effDims (relaxInputs q units) q { dims := some ["*"], units := some (quotient units) } = some ["*"] := rfl
    rw [this] at o1
    injection o1 with o1
    exact o1.symm
  subst o1'
  injection o2 with o2
  subst o2
  have o3' : a' = ta := by
    unfold getAliasOrName relaxInputs at o3
    simp [Dict.get?_cons] at o3
    exact o3.symm
  subst o3'
  have o6' : da.dims = w := by
    rw [o6]
    simp [outDimsSpec, hw]
  have hdims : ∀ d, d ∈ da.dims ↔ d ∈ v.dims ∨ d ∈ e.dims ∨ d ∈ tau.dims := by
    intro d
    rw [o6', hw, mem_wildSpec]
    constructor
    · rintro ⟨p, hp, h1, -⟩
      obtain ⟨kv, hkv, k1, k2⟩ := mem_requested.1 hp
      unfold relaxInputs at hkv
      simp only [List.mem_cons, List.not_mem_nil, or_false] at hkv
      rcases hkv with rfl | rfl | rfl
      · rw [a3] at k1
        injection k1 with k1
        injection k1 with k1
        exact .inl (k1 ▸ h1)
      · rw [b3] at k1
        injection k1 with k1
        injection k1 with k1
        exact .inr (.inl (k1 ▸ h1))
      · rw [c3] at k1
        injection k1 with k1
        injection k1 with k1
        exact .inr (.inr (k1 ▸ h1))
    · have hstar : ∀ n a, Dict.get? state n = some (.da a) → d ∈ a.dims → d ∉ ["*"] := by
        intro n a h1 h2 h3
        rw [List.mem_singleton] at h3
        rw [h3] at h2
        exact hsf n a h1 h2
      rintro (h | h | h)
      · exact ⟨_, hrv, h, hstar _ _ a3 h⟩
      · exact ⟨_, hre, h, hstar _ _ b3 h⟩
      · exact ⟨_, hrt, h, hstar _ _ c3 h⟩
  obtain ⟨r, u, s, hr, hu, hs, hru, hr0, hs0⟩ := hq
  -- the call
  have hprep : prepare R g (relaxWith q units (quotient units)) i state = .ok ⟨raw, time⟩ := by
    unfold prepare
    dsimp only [relaxWith]
    have hck : checkInputs (relaxInputs q units) state = .ok () := by
      unfold checkInputs
      rw [if_pos]
      intro k hk
      have : k = q ∨ k = equilibriumName q ∨ k = timescaleName q := by
        simpa [relaxInputs, Dict.keys] using hk
      rcases this with rfl | rfl | rfl
      · exact Dict.mem_keys_of_get? a3
      · exact Dict.mem_keys_of_get? b3
      · exact Dict.mem_keys_of_get? c3
    rw [hck, Exc.ok_bind, hraw, Exc.ok_bind, hp]
    dsimp only
    rw [Exc.ok_bind, Dict.get_eq_ok.2 ht, Exc.ok_bind]
  have hrd : ∀ ign, restoreDataArrays [] [] state (relaxInputs q units) ign false = .ok [] := by
    intro ign
    unfold getNumpyArrays at hraw
    obtain ⟨wl, hwl, -⟩ := Exc.bind_ok_iff.1 hraw
    unfold restoreDataArrays
    rw [hwl, Exc.ok_bind]
    rfl
  have hc1 : checkRaw (relaxInputs q units) [(q, { dims := some ["*"], units := some (quotient units) })] [] [(q, a')] = .ok () := by
    rw [checkRaw_ok]
    unfold Omitted Undeclared MayReturn
    simp [Dict.keys]
  have hc2 : checkRaw (relaxInputs q units) [] i.ignored [] = .ok () := by
    rw [checkRaw_ok]
    unfold Omitted Undeclared
    simp [Dict.keys]
  have hfin : ∃ diag, callTendency R g (relaxWith q units (quotient units)) i (relaxCall q) x state =
      (x, .ok (Dict.update [] tend, diag)) := by
    unfold callTendency
    rw [hprep]
    dsimp only
    rw [hcall]
    dsimp only
    rw [Exc.ok_bind]
    unfold finishTendency takeTracers
    rw [hp]
    dsimp only [relaxWith]
    rw [Exc.ok_bind]
    dsimp only
    rw [hc1, Exc.ok_bind, hc2, Exc.ok_bind, htend, Exc.ok_bind, hrd, Exc.ok_bind]
    exact ⟨_, rfl⟩
  obtain ⟨diag, hfin⟩ := hfin
  have hkt' : ∀ k, k ∈ Dict.keys (Dict.update ([] : Dict DataArray) tend) ↔ k = q := by
    intro k
    rw [Dict.mem_keys_update, hkt]
    simp [Dict.keys]
  have hgt : Dict.get? (Dict.update ([] : Dict DataArray) tend) q = some da := by
    have hnd : (Dict.keys tend).Nodup := restore_nodup htend
    rw [Dict.get?_update _ _ hnd, o4]
    rfl
  refine ⟨_, diag, da, v, e, tau, hfin, hkt', hgt, o5, a3, b3, c3, hdims, ?_,
    ⟨L, o7, hL _ hrv, hL _ hre, hL _ hrt⟩, ?_⟩
  · rw [o6']
    exact nodup_wildSpec _
  · have hin : ∀ ix, da.InBounds ix → ∀ d ∈ w, ix d < L d := by
      intro ix hix d hd
      unfold DataArray.InBounds at hix
      rw [o7, inB_map, o6'] at hix
      exact hix d hd
    obtain ⟨vp, hvp⟩ : ∃ vp, R.parse vu = some vp := by
      obtain ⟨_, _, a, own, ua, _, _, _, k1, k2, k3, _⟩ := hv.entry (q, { dims := some ["*"], units := some units }) (by simp [relaxInputs])
      rw [a3] at k1
      injection k1 with k1
      injection k1 with k1
      subst k1
      rw [a4] at k2
      injection k2 with k2
      subst k2
      exact ⟨ua, k3⟩
    obtain ⟨ep, hep⟩ : ∃ ep, R.parse eu = some ep := by
      obtain ⟨_, _, a, own, ua, _, _, _, k1, k2, k3, _⟩ :=
        hv.entry (equilibriumName q, { dims := some ["*"], units := some units }) (by simp [relaxInputs])
      rw [b3] at k1
      injection k1 with k1
      injection k1 with k1
      subst k1
      rw [b4] at k2
      injection k2 with k2
      subst k2
      exact ⟨ua, k3⟩
    obtain ⟨tp, htp⟩ : ∃ tp, R.parse tu = some tp := by
      obtain ⟨_, _, a, own, ua, _, _, _, k1, k2, k3, _⟩ :=
        hv.entry (timescaleName q, { dims := some ["*"], units := some "s" }) (by simp [relaxInputs])
      rw [c3] at k1
      injection k1 with k1
      injection k1 with k1
      subst k1
      rw [c4] at k2
      injection k2 with k2
      subst k2
      exact ⟨ua, k3⟩
    refine ⟨r, vu, eu, tu, vp, ep, tp, hr, hr0, a4, hvp, b4, hep, c4, htp, fun ix hix htau => ?_⟩
    have hdw := hin ix hix
    have hidx : InB (specIndex ["*"] w L ix) re.shape := by
      rw [b6]
      show InB [if ("*" : String) = "*" then _ else _] [if ("*" : String) = "*" then _ else _]
      rw [if_pos rfl, if_pos rfl]
      refine ⟨ravel_lt ?_, trivial⟩
      rw [inB_map]
      exact hdw
    have n1 : ∀ d ∈ ["*"], d ≠ "*" → ix d < L d := by
      intro d hd hne
      exact absurd (List.mem_singleton.1 hd) hne
    obtain ⟨p1, p2, e1, e2, -, e3⟩ := a7 ix n1 (fun _ => hdw)
    obtain ⟨p3, p4, f1, f2, -, f3⟩ := b7 ix n1 (fun _ => hdw)
    obtain ⟨p5, p6, g1, g2, -, g3⟩ := c7 ix n1 (fun _ => hdw)
    rw [hu] at e1 f1
    rw [hvp] at e2
    rw [hep] at f2
    rw [hs] at g1
    rw [htp] at g2
    injection e1 with e1
    injection e2 with e2
    injection f1 with f1
    injection f2 with f2
    injection g1 with g1
    injection g2 with g2
    subst e1 e2 f1 f2 g1 g2
    rw [o8 ix hix, ← hw, t2 _ (by rw [d1]; exact hidx), d2 _ hidx, ← e3, ← f3, ← g3, hs0, ← hru]
    rw [← g3, hs0, add_zero] at htau
    have hne : rt.get (specIndex ["*"] w L ix) ≠ 0 := left_ne_zero_of_mul htau
    field_simp
    ring

/-- A component for units with an offset, such as degC, cannot be made (the inputs of one in
K can be in degC). -/
theorem relaxation_offset_rejected (R : Registry) (quotient : String → String) (q units : String) (u : PintUnit)
    (hu : R.parse units = some u) (ho : u.offset ≠ 0) : relaxClass R quotient q units = .error .typeError := by
  unfold relaxClass relaxRate Registry.unit
  rw [hu]
  dsimp only
  rw [Exc.ok_bind, if_pos ho]
  rfl

/-! ## C58 -/

theorem constantProps_ok {d : Dict DataArray} {ps : PropDict} (h : constantProps d = .ok ps) :
    Dict.keys ps = Dict.keys d ∧ ∀ kv ∈ ps, kv.2.aliasName = none ∧ ∃ a u, (kv.1, a) ∈ d ∧ kv.2.dims = some a.dims ∧
      kv.2.units = some u ∧ a.attrs.get? "units" = some u := by
  induction d generalizing ps with
  | nil =>
    injection h with h
    subst h
    exact ⟨rfl, fun kv hkv => (by cases hkv)⟩
  | cons na d ih =>
    obtain ⟨n, a⟩ := na
    unfold constantProps at h
    obtain ⟨u, hu, h⟩ := Exc.bind_ok_iff.1 h
    obtain ⟨ps', hps, h⟩ := Exc.bind_ok_iff.1 h
    injection h with h
    subst h
    obtain ⟨h1, h2⟩ := ih hps
    refine ⟨by rw [Dict.keys_cons, Dict.keys_cons, h1], fun kv hkv => ?_⟩
    rcases List.mem_cons.1 hkv with rfl | hkv
    · exact ⟨rfl, a, u, List.mem_cons_self, rfl, rfl, Dict.get_eq_ok.1 hu⟩
    · obtain ⟨e, a', u', k1, k2⟩ := h2 kv hkv
      exact ⟨e, a', u', List.mem_cons_of_mem _ k1, k2⟩

/-- The array of a dictionary as a component returns it: the same dims and lengths, the same
value at every named coordinate, and of the attributes the units. -/
def SameArray (da a : DataArray) : Prop :=
  da.dims = a.dims ∧ da.arr.shape = a.arr.shape ∧ (∃ u, a.attrs.get? "units" = some u ∧ da.attrs = [("units", u)]) ∧
    ∀ ix, a.InBounds ix → da.at' ix = a.at' ix

/-- Distinct names, no dim called `*`, one length per dim. -/
structure ConstantsOk (d : Dict DataArray) : Prop where
  nodup : (Dict.keys d).Nodup
  star : ∀ n a, d.get? n = some a → "*" ∉ a.dims
  lengths : ∃ L : String → Nat, ∀ n a, d.get? n = some a → a.arr.shape = a.dims.map L

theorem constant_restore {d : Dict DataArray} {ps : PropDict} (hd : ConstantsOk d) (hps : constantProps d = .ok ps)
    (state : State) (ign : List String) :
    checkRaw [] ps ign (arraysOf d) = .ok () ∧
    ∃ out, restoreDataArrays (arraysOf d) ps state [] ign false = .ok out ∧ (Dict.keys out).Nodup ∧
      (∀ k, k ∈ out.keys ↔ k ∈ d.keys ∧ k ∉ ign) ∧
      ∀ n a, d.get? n = some a → n ∉ ign → ∃ da, out.get? n = some da ∧ SameArray da a := by
  obtain ⟨hk, hp⟩ := constantProps_ok hps
  obtain ⟨L, hL⟩ := hd.lengths
  have hnd : (Dict.keys ps).Nodup := by
    rw [hk]
    exact hd.nodup
  have hkr : Dict.keys (arraysOf d) = Dict.keys d := Dict.keys_mapVal _ _
  have hst : restoreDataArrays (arraysOf d) ps state [] ign false = restoreDataArrays (arraysOf d) ps [] [] ign false := rfl
  have hal : ∀ n, n ∈ Dict.keys ps → getAliasOrName n ps [] = n := by
    intro n hn
    obtain ⟨p, hp'⟩ := Dict.get?_of_mem_keys hn
    unfold getAliasOrName
    rw [hp']
    have := (hp _ (Dict.mem_of_get? hp')).1
    dsimp only at this
    simp [this]
  have hget : ∀ kv ∈ ps, ∃ a u, d.get? kv.1 = some a ∧ kv.2.dims = some a.dims ∧ kv.2.units = some u ∧
      a.attrs.get? "units" = some u := by
    intro kv hkv
    obtain ⟨-, a, u, h1, h2⟩ := hp kv hkv
    exact ⟨a, u, Dict.get?_of_mem hd.nodup h1, h2⟩
  obtain ⟨out, hout, hvals⟩ := restored_values [] [] ps (arraysOf d) ign L (fun n a h => by cases h) hnd
    ⟨⟨fun _ => none, id⟩, [], rfl⟩ (fun q hq => by cases hq) (by
      intro kv hkv _
      obtain ⟨a, u, h1, h2, h3, h4⟩ := hget kv hkv
      have hs := hd.star _ _ h1
      refine ⟨a.dims, u, a.arr, ?_, h3, ?_, fun h => absurd h hs, ?_, ?_⟩
      · unfold effDims
        rw [h2]
        rfl
      · rw [List.count_eq_zero_of_not_mem hs]
        omega
      · rw [hal _ (Dict.mem_keys_of_mem hkv)]
        unfold arraysOf
        rw [Dict.get?_mapVal, h1]
        rfl
      · rw [hL _ _ h1]
        unfold specShape
        apply List.map_congr_left
        intro x hx
        rw [if_neg]
        rintro rfl
        exact hs hx)
  refine ⟨?_, out, hst.trans hout, restore_nodup hout, ?_, ?_⟩
  · rw [checkRaw_ok]
    refine ⟨?_, ?_⟩
    · rintro ⟨kv, hkv, -, h2⟩
      refine h2 kv.1 ?_ (.inl rfl)
      rw [hkr, ← hk]
      exact Dict.mem_keys_of_mem hkv
    · rintro ⟨k, hkk, h2⟩
      rw [hkr, ← hk] at hkk
      obtain ⟨p, hp'⟩ := Dict.get?_of_mem_keys hkk
      exact h2 _ (Dict.mem_of_get? hp') (.inl rfl)
  · intro k
    rw [restore_keys hnd hout, hk]
  · intro n a hn hni
    have hnk : n ∈ Dict.keys ps := by
      rw [hk]
      exact Dict.mem_keys_of_get? hn
    obtain ⟨p, hp'⟩ := Dict.get?_of_mem_keys hnk
    obtain ⟨dims, u, a', da, o1, o2, o3, o4, o5, o6, o7, o8⟩ := hvals _ (Dict.mem_of_get? hp') hni
    obtain ⟨a'', u', h1, h2, h3, h4⟩ := hget _ (Dict.mem_of_get? hp')
    dsimp only at h1 h2 h3 o1 o2 o3 o4
    rw [hn] at h1
    injection h1 with h1
    subst h1
    rw [h3] at o2
    injection o2 with o2
    subst o2
    have hs := hd.star _ _ hn
    have hdims : dims = a.dims := by
      unfold effDims at o1
      rw [h2] at o1
      injection o1 with o1
      exact o1.symm
    subst hdims
    have ha' : a' = a.arr := by
      rw [hal _ hnk] at o3
      unfold arraysOf at o3
      rw [Dict.get?_mapVal, hn] at o3
      injection o3 with o3
      exact o3.symm
    subst ha'
    rw [outDimsSpec_no_star hs] at o6
    have hshape : da.arr.shape = a.arr.shape := by rw [o7, o6, hL _ _ hn]
    refine ⟨da, o4, o6, hshape, ⟨u', h4, o5⟩, fun ix hix => ?_⟩
    rw [o8 ix (by rw [o6, hshape]; exact hix)]
    unfold specIndex DataArray.at'
    congr 1
    apply List.map_congr_left
    intro x hx
    rw [if_neg]
    rintro rfl
    exact hs hx

/-- **C58, tendencies.**  For every state that has a time, a ConstantTendencyComponent
returns the tendencies and the diagnostics it was given (values, dims and units); with
`tendencies_in_diagnostics` also the tendencies under their names. -/
theorem constant_tendency_component {σ : Type} (R : Registry) (g0 g1 g : Tracers) (tends diags : Dict DataArray)
    (name : String) (tid : Bool) (c : Class) (i : Inst) (ht : ConstantsOk tends) (hd : ConstantsOk diags)
    (hc : constantTendencyClass tends diags = .ok c) (hmade : constructRebuilt R g0 c tid name = (g1, .ok i))
    (state : State) (time : Val) (htime : Dict.get? state "time" = some time) (x : σ) :
    ∃ tend diag, callTendency R g c i (constantTendencyCall tends diags) x state = (x, .ok (tend, diag)) ∧
      (∀ k, k ∈ tend.keys ↔ k ∈ tends.keys) ∧ (∀ n a, tends.get? n = some a → ∃ da, tend.get? n = some da ∧ SameArray da a) ∧
      (∀ k, k ∈ diag.keys ↔ (k ∈ diags.keys ∨ tid = true ∧ ∃ n ∈ tends.keys, k = tendencyName n name)) ∧
      (∀ n a, diags.get? n = some a → ¬ (tid = true ∧ ∃ m ∈ tends.keys, n = tendencyName m name) →
        ∃ da, diag.get? n = some da ∧ SameArray da a) ∧
      (tid = true → ∀ n, n ∈ tends.keys → diag.get? (tendencyName n name) = tend.get? n) := by
  unfold constantTendencyClass at hc
  obtain ⟨tp, htp, hc⟩ := Exc.bind_ok_iff.1 hc
  obtain ⟨dp, hdp, hc⟩ := Exc.bind_ok_iff.1 hc
  injection hc with hc
  subst hc
  obtain ⟨hp, hname, htid, hig⟩ := rebuilt_ok rfl rfl hmade
  obtain ⟨c1, tend, r1, n1, k1, v1⟩ := constant_restore ht htp state []
  obtain ⟨c2, diag, r2, n2, k2, v2⟩ := constant_restore hd hdp state i.ignored
  have higm : ∀ k, k ∈ i.ignored ↔ tid = true ∧ ∃ n ∈ tends.keys, k = tendencyName n name := by
    intro k
    rw [hig]
    dsimp only
    rw [(constantProps_ok htp).1]
    cases tid with
    | false => simp
    | true =>
      simp only [if_true, List.mem_map, true_and]
      exact ⟨fun ⟨n, h1, h2⟩ => ⟨n, h1, h2.symm⟩, fun ⟨n, h1, h2⟩ => ⟨n, h1, h2.symm⟩⟩
  have hkt : ∀ k, k ∈ Dict.keys (Dict.update ([] : Dict DataArray) tend) ↔ k ∈ tends.keys := by
    intro k
    rw [Dict.mem_keys_update, k1]
    simp [Dict.keys]
  have hgt : ∀ k, Dict.get? (Dict.update ([] : Dict DataArray) tend) k = tend.get? k := by
    intro k
    rw [Dict.get?_update _ _ n1]
    cases tend.get? k <;> rfl
  have hnt : (Dict.keys (Dict.update ([] : Dict DataArray) tend)).Nodup := Dict.nodup_keys_update (by simp [Dict.keys]) _
  refine ⟨Dict.update [] tend, if i.tid then insertTendencies i.name (Dict.update [] tend) diag else diag, ?_, hkt, ?_, ?_, ?_, ?_⟩
  · unfold callTendency prepare checkInputs
    dsimp only
    rw [if_pos (by simp [Dict.keys]), Exc.ok_bind, hp]
    have h0 : getNumpyArrays R state [] = .ok [] := rfl
    rw [h0]
    dsimp only
    rw [Exc.ok_bind, Exc.ok_bind, Dict.get_eq_ok.2 htime, Exc.ok_bind]
    dsimp only [constantTendencyCall]
    rw [Exc.ok_bind]
    unfold finishTendency takeTracers
    rw [hp]
    dsimp only
    rw [Exc.ok_bind]
    dsimp only
    rw [c1, Exc.ok_bind, c2, Exc.ok_bind, r1, Exc.ok_bind, r2, Exc.ok_bind]
  · intro n a hn
    rw [hgt]
    exact v1 n a hn (by simp)
  · intro k
    rw [htid, hname]
    cases htd : tid with
    | false =>
      have hne : k ∉ i.ignored := by
        rw [higm, htd]
        simp
      simp only [Bool.false_eq_true, if_false, k2, false_and, or_false]
      exact ⟨fun h => h.1, fun h => ⟨h, hne⟩⟩
    | true =>
      simp only [if_true, insertTendencies_keys, k2, higm, htd, true_and, hkt]
      by_cases hx : ∃ n ∈ tends.keys, k = tendencyName n name
      · exact ⟨fun _ => .inr hx, fun _ => .inr hx⟩
      · exact ⟨fun h => h.imp (fun h => h.1) id, fun h => h.imp (fun h => ⟨h, hx⟩) id⟩
  · intro n a hn hno
    have hni : n ∉ i.ignored := by
      rw [higm]
      exact hno
    obtain ⟨da, e1, e2⟩ := v2 n a hn hni
    refine ⟨da, ?_, e2⟩
    rw [htid, hname]
    cases htd : tid with
    | false => simpa using e1
    | true =>
      rw [if_pos rfl, (insertTendencies_get? hnt).2 n, e1]
      intro m hm e
      exact hno ⟨htd, m, (hkt m).1 hm, e⟩
  · intro htd n hn
    rw [htid, htd, if_pos rfl, hname]
    obtain ⟨da, hda⟩ := Dict.get?_of_mem_keys ((hkt n).2 hn)
    rw [hda]
    exact (insertTendencies_get? hnt).1 n da hda

/-- **C58, diagnostics.** -/
theorem constant_diagnostic_component {σ : Type} (R : Registry) (g0 g1 g : Tracers) (diags : Dict DataArray) (name : String)
    (c : Class) (i : Inst) (hd : ConstantsOk diags) (hc : constantDiagnosticClass diags = .ok c)
    (hmade : constructRebuilt R g0 c false name = (g1, .ok i)) (state : State) (time : Val)
    (htime : Dict.get? state "time" = some time) (x : σ) :
    ∃ diag, callDiagnostic R g c i (constantDiagnosticCall diags) x state = (x, .ok diag) ∧
      (∀ k, k ∈ diag.keys ↔ k ∈ diags.keys) ∧ ∀ n a, diags.get? n = some a → ∃ da, diag.get? n = some da ∧ SameArray da a := by
  unfold constantDiagnosticClass at hc
  obtain ⟨dp, hdp, hc⟩ := Exc.bind_ok_iff.1 hc
  injection hc with hc
  subst hc
  obtain ⟨-, -, -, hf, -, hpk⟩ := construct_ok (show construct R g0 _ false name = (g1, _, .ok i) by
    unfold constructRebuilt at hmade
    rw [Prod.mk.injEq] at hmade
    exact Prod.ext hmade.1 (Prod.ext rfl hmade.2))
  obtain ⟨hcc, hig⟩ := hf rfl
  rw [hcc] at hpk
  have hp : i.packer = none := by
    unfold makePacker at hpk
    rw [if_neg (by simp), Prod.mk.injEq] at hpk
    have h6 := hpk.2
    injection h6 with h6
    exact h6.symm
  obtain ⟨c2, diag, r2, n2, k2, v2⟩ := constant_restore hd hdp state []
  refine ⟨diag, ?_, fun k => by rw [k2]; simp, fun n a hn => v2 n a hn (by simp)⟩
  unfold callDiagnostic prepare checkInputs
  dsimp only
  rw [if_pos (by simp [Dict.keys]), Exc.ok_bind, hp]
  have h0 : getNumpyArrays R state [] = .ok [] := rfl
  rw [h0]
  dsimp only
  rw [Exc.ok_bind, Exc.ok_bind, Dict.get_eq_ok.2 htime, Exc.ok_bind]
  dsimp only [constantDiagnosticCall]
  rw [Exc.ok_bind]
  unfold finishDiagnostic
  dsimp only
  rw [hig, c2, Exc.ok_bind, r2]

/-! ## C59 -/

/-- **C59 fails** for every ConstantTendencyComponent with `tendencies_in_diagnostics` and a
tendency: it returns a diagnostic that is not in its `diagnostic_properties` (unless one was
given under the same name). -/
theorem constant_undeclared_diagnostic {σ : Type} (R : Registry) (g0 g1 g : Tracers) (tends diags : Dict DataArray)
    (name : String) (c : Class) (i : Inst) (ht : ConstantsOk tends) (hd : ConstantsOk diags)
    (hc : constantTendencyClass tends diags = .ok c) (hmade : constructRebuilt R g0 c true name = (g1, .ok i))
    (state : State) (time : Val) (htime : Dict.get? state "time" = some time) (x : σ) (n : String) (hn : n ∈ tends.keys)
    (hno : tendencyName n name ∉ diags.keys) :
    ∃ tend diag, callTendency R g c i (constantTendencyCall tends diags) x state = (x, .ok (tend, diag)) ∧
      tendencyName n name ∈ diag.keys ∧ tendencyName n name ∉ c.diagProps.keys := by
  obtain ⟨tend, diag, h1, -, -, h2, -, -⟩ := constant_tendency_component R g0 g1 g tends diags name true c i ht hd hc hmade
    state time htime x
  refine ⟨tend, diag, h1, (h2 _).2 (.inr ⟨rfl, n, hn, rfl⟩), ?_⟩
  unfold constantTendencyClass at hc
  obtain ⟨tp, htp, hc⟩ := Exc.bind_ok_iff.1 hc
  obtain ⟨dp, hdp, hc⟩ := Exc.bind_ok_iff.1 hc
  injection hc with hc
  subst hc
  rw [(constantProps_ok hdp).1]
  exact hno

/-- **C59.**  With property dictionaries that keep what is written to them (class or instance
attributes), the diagnostics returned are those declared and, with `tendencies_in_diagnostics`,
the tendencies of the tracers (`tracer_undeclared_diagnostic`). -/
theorem diagnostics_declared_partial {σ : Type} (R : Registry) (g0 g1 g : Tracers) (c0 c : Class) (tid : Bool)
    (name : String) (i : Inst) (arrayCall : σ → RawState → σ × Except Err (Dict NDArray × Dict NDArray)) (s s' : σ)
    (state : State) (tend diag : Dict DataArray) (hkind : c0.kind = .tendency ∨ c0.kind = .implicit)
    (hout : c0.outProps.keys.Nodup) (hdiag : c0.diagProps.keys.Nodup)
    (hmade : construct R g0 c0 tid name = (g1, c, .ok i))
    (hcall : callTendency R g c i arrayCall s state = (s', .ok (tend, diag))) :
    ∀ k, k ∈ diag.keys ↔ k ∈ c.diagProps.keys ∨ (tid = true ∧ ∃ t, IsTracer g c0 t ∧ k = t ++ "_tendency_from_" ++ name) := by
  obtain ⟨h1, h2⟩ := tendency_call_keys R g0 g1 g c0 c tid name i arrayCall s s' state tend diag hkind hout hdiag hmade hcall
  obtain ⟨-, -, -, hf, ht, -⟩ := construct_ok hmade
  intro k
  rw [h2]
  cases tid with
  | false =>
    obtain ⟨rfl, -⟩ := hf rfl
    simp
  | true =>
    obtain ⟨e, -, -⟩ := insertProps_tendency hkind (ht rfl)
    rw [e]
    dsimp only
    rw [Dict.mem_keys_update, keys_inserted, or_assoc]
    simp only [true_and, List.mem_map]
    have : (∃ x ∈ tend.keys, k = x ++ "_tendency_from_" ++ name) ↔
        (∃ a ∈ c0.outProps.keys, tendencyName a name = k) ∨ ∃ t, IsTracer g c0 t ∧ k = t ++ "_tendency_from_" ++ name := by
      constructor
      · rintro ⟨x, hx, rfl⟩
        rcases (h1 x).1 hx with hx | hx
        · exact .inl ⟨x, hx, rfl⟩
        · exact .inr ⟨x, hx, rfl⟩
      · rintro (⟨x, hx, rfl⟩ | ⟨x, hx, rfl⟩)
        · exact ⟨x, (h1 x).2 (.inl hx), rfl⟩
        · exact ⟨x, (h1 x).2 (.inr hx), rfl⟩
    rw [this]

/-- **C59 fails** for every component with `tendencies_in_diagnostics` that uses tracers, also
if its property dictionaries keep what is written to them: the tendency of every tracer is
returned as a diagnostic, and it is not declared unless the class itself declares that name
or declares the tracer as an output (which C23 rejects). -/
theorem tracer_undeclared_diagnostic {σ : Type} (R : Registry) (g0 g1 g : Tracers) (c0 c : Class)
    (name : String) (i : Inst) (arrayCall : σ → RawState → σ × Except Err (Dict NDArray × Dict NDArray)) (s s' : σ)
    (state : State) (tend diag : Dict DataArray) (hkind : c0.kind = .tendency ∨ c0.kind = .implicit)
    (hout : c0.outProps.keys.Nodup) (hdiag : c0.diagProps.keys.Nodup)
    (hmade : construct R g0 c0 true name = (g1, c, .ok i))
    (hcall : callTendency R g c i arrayCall s state = (s', .ok (tend, diag)))
    (t : String) (ht : IsTracer g c0 t) (hno : t ∉ c0.outProps.keys)
    (hnd : t ++ "_tendency_from_" ++ name ∉ c0.diagProps.keys) :
    t ++ "_tendency_from_" ++ name ∈ diag.keys ∧ t ++ "_tendency_from_" ++ name ∉ c.diagProps.keys := by
  refine ⟨(diagnostics_declared_partial R g0 g1 g c0 c true name i arrayCall s s' state tend diag hkind hout hdiag hmade
    hcall _).2 (.inr ⟨rfl, t, ht, rfl⟩), ?_⟩
  obtain ⟨-, -, -, -, ht', -⟩ := construct_ok hmade
  obtain ⟨e, -, -⟩ := insertProps_tendency hkind (ht' rfl)
  rw [e]
  dsimp only
  rw [Dict.mem_keys_update, keys_inserted, List.mem_map]
  rintro (h | ⟨a, ha, h⟩)
  · exact hnd h
  · have : a = t := tendencyName_inj (inst := name) h
    exact hno (this ▸ ha)

/-! ## Examples -/

namespace Demo

/-- A temperature on (x, z, y) in K, an equilibrium in degC on a vertical axis and a
timescale that depends on x. -/
def relaxState : State :=
  [("T", .da temp),
   ("equilibrium_T", .da ⟨["z"], ⟨[3], fun i => (i.getD 0 0 : Nat)⟩, [("units", "degC")]⟩),
   ("T_relaxation_timescale", .da ⟨["x"], ⟨[2], fun i => (i.getD 0 0 : Nat) * 10 + 10⟩, [("units", "s")]⟩),
   ("time", .time 0)]

theorem relaxState_mem {n : String} {v : Val} (h : Dict.get? relaxState n = some v) :
    (n = "T" ∧ v = .da temp) ∨
    (n = "equilibrium_T" ∧ v = .da ⟨["z"], ⟨[3], fun i => (i.getD 0 0 : Nat)⟩, [("units", "degC")]⟩) ∨
    (n = "T_relaxation_timescale" ∧ v = .da ⟨["x"], ⟨[2], fun i => (i.getD 0 0 : Nat) * 10 + 10⟩, [("units", "s")]⟩) ∨
    (n = "time" ∧ v = .time 0) := by
  have := Dict.mem_of_get? h
  simpa [relaxState] using this

theorem relaxState_ok : relaxState.WF ∧ relaxState.StarFree := by
  refine ⟨fun n a h => ?_, fun n a h => ?_⟩
  · rcases relaxState_mem h with ⟨-, h⟩ | ⟨-, h⟩ | ⟨-, h⟩ | ⟨-, h⟩ <;> cases h <;> exact ⟨rfl, by decide⟩
  · rcases relaxState_mem h with ⟨-, h⟩ | ⟨-, h⟩ | ⟨-, h⟩ | ⟨-, h⟩ <;> cases h <;> simp [temp]

theorem relaxState_valid : ValidInputs reg relaxState (relaxInputs "T" "K") := by
  have hreq : ∀ q ∈ requested relaxState (relaxInputs "T" "K"),
      q = (temp, ["*"]) ∨ q = (⟨["z"], ⟨[3], fun i => (i.getD 0 0 : Nat)⟩, [("units", "degC")]⟩, ["*"]) ∨
      q = (⟨["x"], ⟨[2], fun i => (i.getD 0 0 : Nat) * 10 + 10⟩, [("units", "s")]⟩, ["*"]) := by
    intro q hq
    have : requested relaxState (relaxInputs "T" "K") = [(temp, ["*"]),
      (⟨["z"], ⟨[3], fun i => (i.getD 0 0 : Nat)⟩, [("units", "degC")]⟩, ["*"]),
      (⟨["x"], ⟨[2], fun i => (i.getD 0 0 : Nat) * 10 + 10⟩, [("units", "s")]⟩, ["*"])] := rfl
    rw [this] at hq
    simpa using hq
  refine ⟨?_, ?_, ?_⟩
  · intro kv hkv
    unfold relaxInputs at hkv
    simp only [List.mem_cons, List.not_mem_nil, or_false] at hkv
    rcases hkv with rfl | rfl | rfl
    · exact ⟨_, _, temp, "K", _, _, rfl, rfl, rfl, rfl, rfl, rfl, rfl⟩
    · exact ⟨_, _, _, "degC", _, _, rfl, rfl, rfl, rfl, rfl, rfl, rfl⟩
    · exact ⟨_, _, _, "s", _, _, rfl, rfl, rfl, rfl, rfl, rfl, rfl⟩
  · intro q hq q' hq' d hd hd'
    rcases hreq q hq with rfl | rfl | rfl <;> rcases hreq q' hq' with rfl | rfl | rfl <;>
      simp [temp] at hd hd' <;> (try rcases hd with rfl | rfl | rfl) <;>
      (try simp at hd') <;> rfl
  · intro q hq h
    rcases hreq q hq with rfl | rfl | rfl <;> simp at h

def relaxInst : Inst := ⟨"relax", true, ["T_tendency_from_relax"], none⟩

/-- The tendency at x = 1, z = 2, y = 0: (2 + 273.15 - 120) / 20. -/
example : Exc.test (callTendency reg {} (relaxWith "T" "K" "K s^-1") relaxInst (relaxCall "T") () relaxState).2 (fun r =>
    match r.1.get? "T" with
    | some da => decide (da.dims = ["x", "z", "y"]) && decide (da.arr.get [1, 2, 0] = 15515 / 2000)
    | none => false) = true := by decide +kernel

/-- The hypotheses of C57: inputs in different units and on different dims. -/
example : ∃ tend diag, callTendency reg {} (relaxWith "T" "K" "K s^-1") relaxInst (relaxCall "T") () relaxState =
      ((), .ok (tend, diag)) ∧ ∀ k, k ∈ tend.keys ↔ k = "T" := by
  obtain ⟨tend, diag, da, v, e, tau, h1, h2, -⟩ := relaxation_tendency reg reg_faithful (· ++ " s^-1") {} {}
    {} "T" "K" "relax" true (relaxWith "T" "K" "K s^-1") relaxInst
    ⟨_, _, _, rfl, rfl, rfl, by decide +kernel, rfl, rfl⟩ rfl rfl relaxState relaxState_ok.1 relaxState_ok.2 (.time 0) rfl
    relaxState_valid ()
  exact ⟨tend, diag, h1, h2⟩

/-- Constants on two dims, one shared. -/
def constTends : Dict DataArray :=
  [("T", ⟨["x"], ⟨[2], fun i => (i.getD 0 0 : Nat)⟩, [("units", "K s^-1"), ("note", "a")]⟩),
   ("u", ⟨["x", "y"], ⟨[2, 3], fun _ => 1⟩, [("units", "m s^-1 s^-1")]⟩)]

theorem constTends_ok : ConstantsOk constTends := by
  refine ⟨by decide, fun n a h => ?_, fun d => if d = "x" then 2 else 3, fun n a h => ?_⟩ <;>
  · have := Dict.mem_of_get? h
    simp only [constTends, List.mem_cons, Prod.mk.injEq, List.not_mem_nil, or_false] at this
    rcases this with ⟨-, rfl⟩ | ⟨-, rfl⟩ <;> simp

/-- The hypotheses of C58, and C59 failing. -/
example : ∃ c i tend diag, constantTendencyClass constTends [] = .ok c ∧
    constructRebuilt reg {} c true "const" = ({}, .ok i) ∧
    callTendency reg {} c i (constantTendencyCall constTends []) () relaxState = ((), .ok (tend, diag)) ∧
    "T_tendency_from_const" ∈ diag.keys ∧ "T_tendency_from_const" ∉ c.diagProps.keys := by
  obtain ⟨tend, diag, h⟩ := constant_undeclared_diagnostic (σ := Unit) reg {} {} {} constTends [] "const" _ _ constTends_ok
    ⟨by decide, fun n a h => (by cases h), fun _ => 0, fun n a h => (by cases h)⟩ rfl rfl relaxState (.time 0) rfl () "T"
    (by decide) (by decide)
  exact ⟨_, _, tend, diag, rfl, rfl, h⟩

/-- A class with a declared tendency that packs the tracers. -/
def mixedCls : Class where
  kind := .tendency
  inProps := [("T", { dims := some ["*"], units := some "K" })]
  outProps := [("T", { units := some "K s^-1" })]
  diagProps := []
  usesTracers := true
  tracerDims := some ["tracer", "*"]

/-- The hypotheses of C59 with tracer `h`: the declared tendency is declared as a diagnostic too,
that of the tracer is returned and not declared. -/
example : (match construct reg { units := [("h", "m")], names := ["h"] } mixedCls true "me" with
    | (_, c, .ok i) => Exc.test (callTendency reg { units := [("h", "m")], names := ["h"] } c i
        (fun (_ : Unit) raw => ((), raw.arrays.get "tracers" >>= fun t => raw.arrays.get "T" >>= fun a =>
          .ok ([("tracers", t), ("T", a)], []))) () state).2 (fun r =>
        decide (Dict.keys r.2 = ["h_tendency_from_me", "T_tendency_from_me"] ∧
          c.diagProps.keys = ["T_tendency_from_me"] ∧ Dict.keys r.1 = ["h", "T"]))
    | _ => false) = true := by decide +kernel

end Demo

end Verif

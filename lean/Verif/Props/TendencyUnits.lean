import Verif.Props.SSPRK
/-! # Units of tendencies: property C39 -/

namespace Verif

variable {σ : Type}

/-- An array without its attributes. -/
def DataArray.bare (v : DataArray) : DataArray := { v with attrs := [] }

def bareDict (t : Dict DataArray) : Dict DataArray := Dict.mapVal DataArray.bare t

theorem bare_smul (v : DataArray) (c : Rat) : v.bare.smul c = v.smul c := rfl

theorem keys_bareDict (t : Dict DataArray) : Dict.keys (bareDict t) = Dict.keys t := Dict.keys_mapVal _ _

theorem get_bareDict {α : Type} (t : Dict DataArray) (k : String) (f : DataArray → Except Err α) :
    ((bareDict t).get k >>= f) = (t.get k >>= fun v => f v.bare) := by
  unfold Dict.get bareDict
  rw [Dict.get?_mapVal]
  cases Dict.get? t k <;> rfl

theorem stepEuler_bare (state : State) (t : Dict DataArray) (dt : Int) :
    stepEuler state (bareDict t) dt = stepEuler state t dt := by
  unfold stepEuler
  simp only [keys_bareDict, get_bareDict, bare_smul]

theorem secondBashforth_bare (state : State) (t0 t2 t1 : Dict DataArray) (dt : Int) :
    secondBashforth state (bareDict t0) (bareDict t2) (bareDict t1) dt = secondBashforth state t0 t2 t1 dt := by
  unfold secondBashforth
  simp only [keys_bareDict, get_bareDict, bare_smul]

theorem thirdBashforth_bare (state : State) (t0 t3 t2 t1 : Dict DataArray) (dt : Int) :
    thirdBashforth state (bareDict t0) (bareDict t3) (bareDict t2) (bareDict t1) dt =
      thirdBashforth state t0 t3 t2 t1 dt := by
  unfold thirdBashforth
  simp only [keys_bareDict, get_bareDict, bare_smul]

theorem fourthBashforth_bare (state : State) (t0 t4 t3 t2 t1 : Dict DataArray) (dt : Int) :
    fourthBashforth state (bareDict t0) (bareDict t4) (bareDict t3) (bareDict t2) (bareDict t1) dt =
      fourthBashforth state t0 t4 t3 t2 t1 dt := by
  unfold fourthBashforth
  simp only [keys_bareDict, get_bareDict, bare_smul]

theorem performStep_bare (order : Nat) (hist : List (Dict DataArray)) (state : State) (dt : Int) :
    performStep order (hist.map bareDict) state dt = performStep order hist state dt := by
  unfold performStep
  rw [← List.map_reverse, List.length_map]
  generalize min order hist.length = m
  generalize hist.reverse = rev
  cases hist with
  | nil => rfl
  | cons t0 l =>
    cases rev with
    | nil => rfl
    | cons t1 prev =>
      simp only [List.map_cons]
      rcases m with _ | _ | _ | _ | _ | m
      · rfl
      · exact stepEuler_bare _ _ _
      · cases prev with
        | nil => rfl
        | cons t2 prev => exact secondBashforth_bare _ _ _ _ _
      · rcases prev with _ | ⟨t2, _ | ⟨t3, prev⟩⟩
        · rfl
        · rfl
        · exact thirdBashforth_bare _ _ _ _ _ _
      · rcases prev with _ | ⟨t2, _ | ⟨t3, _ | ⟨t4, prev⟩⟩⟩
        · rfl
        · rfl
        · rfl
        · exact fourthBashforth_bare _ _ _ _ _ _ _
      · rfl

theorem stepLeapfrog_bare (ν α : Rat) (old : State) (t : Dict DataArray) (dt : Int) (ks : List String) :
    ∀ state new, stepLeapfrog ν α old (bareDict t) dt ks state new = stepLeapfrog ν α old t dt ks state new := by
  induction ks with
  | nil => intro state new; rfl
  | cons k ks ih =>
    intro state new
    unfold stepLeapfrog
    have : ∀ (o x v : DataArray), leapfrogEntry ν α o x v.bare dt = leapfrogEntry ν α o x v dt := fun _ _ _ => rfl
    simp only [get_bareDict, this, ih]

/-! ## Conversion to the state's units -/

theorem toUnits_same {R : Registry} (hF : R.Faithful) {v w : DataArray} (h : SameRate R v w) (u : String) :
    Exc.Rel (fun a b => a.bare = b.bare) (v.toUnits R u) (w.toUnits R u) := by
  rcases h with rfl | ⟨hd, hsh, x, y, hx, hy, hph⟩
  · cases v.toUnits R u <;> simp [Exc.Rel]
  · obtain ⟨a, b, ha, hb, hdim, _⟩ := hph []
    cases hv : v.toUnits R u with
    | ok v' =>
      cases hw : w.toUnits R u with
      | ok w' =>
        show v'.bare = w'.bare
        obtain ⟨x', hx', d1, s1, p1, _⟩ := toUnits_ok hF hv
        obtain ⟨y', hy', d2, s2, p2, _⟩ := toUnits_ok hF hw
        rw [hx] at hx'; cases hx'
        rw [hy] at hy'; cases hy'
        have hget : v'.arr.get = w'.arr.get := by
          funext idx
          obtain ⟨c1, a1, hc1, ha1, _, e1⟩ := p1 idx
          obtain ⟨c2, b1, hc2, hb1, _, e2⟩ := p2 idx
          obtain ⟨a2, b2, ha2, hb2, _, e3⟩ := hph idx
          rw [hc1] at hc2; cases hc2
          rw [ha1] at ha2; cases ha2
          rw [hb1] at hb2; cases hb2
          have hpos := c1.scale_pos
          have : (v'.arr.get idx - w'.arr.get idx) * c1.scale = 0 := by linarith
          rcases mul_eq_zero.1 this with h | h
          · linarith
          · rw [h] at hpos; exact absurd hpos (lt_irrefl _)
        have harr : v'.arr = w'.arr := by
          cases hva : v'.arr with
          | mk sh g =>
            cases hwa : w'.arr with
            | mk sh' g' =>
              rw [hva, hwa] at hget
              have hs' : sh = sh' := by
                have := s1.trans (hsh.trans s2.symm)
                rw [hva, hwa] at this
                exact this
              simp only at hget
              rw [hs', hget]
        unfold DataArray.bare
        rw [d1, d2, hd, harr]
      | error e =>
        exfalso
        unfold DataArray.toUnits DataArray.dataArrayToUnits at hv hw
        simp only [hx, hy, Registry.unit, ha, hb] at hv hw
        cases hu : R.parse u with
        | none => simp [hu] at hv
        | some c =>
          simp only [hu, Exc.ok_bind] at hv hw
          by_cases h1 : b.sameQty c
          · rw [if_pos h1] at hw; cases hw
          · rw [if_neg h1] at hw
            by_cases h2 : b.dim = c.dim
            · rw [if_pos h2] at hw; cases hw
            · by_cases h3 : a.sameQty c
              · simp only [PintUnit.sameQty, Bool.and_eq_true, decide_eq_true_eq] at h3
                exact h2 (hdim.symm.trans h3.1)
              · rw [if_neg h3, if_neg (fun h => h2 (hdim.symm.trans h))] at hv; cases hv
    | error e =>
      unfold DataArray.toUnits DataArray.dataArrayToUnits at hv ⊢
      simp only [hx, hy, Registry.unit, ha, hb] at hv ⊢
      cases hu : R.parse u with
      | none =>
        simp only [hu] at hv ⊢
        exact Except.error.inj (hv.symm.trans rfl)
      | some c =>
        simp only [hu, Exc.ok_bind] at hv ⊢
        by_cases h1 : a.sameQty c
        · rw [if_pos h1] at hv; cases hv
        · rw [if_neg h1] at hv
          by_cases h2 : a.dim = c.dim
          · rw [if_pos h2] at hv; cases hv
          · rw [if_neg h2] at hv
            rw [if_neg (fun h => h2 (hdim.trans (by simp only [PintUnit.sameQty, Bool.and_eq_true, decide_eq_true_eq] at h; exact h.1))),
              if_neg (fun h => h2 (hdim.trans h))]
            exact Except.error.inj (hv.symm.trans rfl)

theorem convertTendency_same {R : Registry} (hF : R.Faithful) (state : State) (q : String) {v w : DataArray}
    (h : SameRate R v w) :
    Exc.Rel (fun a b => a.bare = b.bare) (convertTendency R state q v) (convertTendency R state q w) := by
  unfold convertTendency
  have hu : (v.attrs.get? "units" = none ↔ w.attrs.get? "units" = none) := by
    rcases h with rfl | ⟨_, _, x, y, hx, hy, _⟩
    · exact Iff.rfl
    · rw [hx, hy]; simp
  cases hv : v.attrs.get? "units" with
  | none =>
    rw [hu.1 hv]
    rcases h with rfl | ⟨_, _, x, y, hx, hy, _⟩
    · rfl
    · rw [hv] at hx; cases hx
  | some x =>
    cases hw : w.attrs.get? "units" with
    | none => rw [hu.2 hw] at hv; cases hv
    | some y =>
      simp only
      cases State.da state q with
      | error e => exact rfl
      | ok s =>
        rw [Exc.ok_bind, Exc.ok_bind]
        cases s.attrs.get "units" with
        | error e => exact rfl
        | ok u => exact toUnits_same hF h (u ++ " s^-1")

theorem convertTendencies_same {R : Registry} (hF : R.Faithful) (state : State) {t t' : Dict DataArray}
    (h : List.Forall₂ (fun a b => a.1 = b.1 ∧ SameRate R a.2 b.2) t t') :
    Exc.Rel (fun a b => bareDict a = bareDict b) (convertTendencies R state t) (convertTendencies R state t') := by
  induction h with
  | nil => exact rfl
  | cons hab _ ih =>
    rename_i a b l l' _
    obtain ⟨ka, va⟩ := a
    obtain ⟨kb, vb⟩ := b
    obtain ⟨hk, hv⟩ := hab
    simp only at hk hv
    subst hk
    unfold convertTendencies
    have hc := convertTendency_same hF state ka hv
    revert hc ih
    cases convertTendency R state ka va <;> cases convertTendency R state ka vb
    · intro _ hc; exact hc
    · intro _ hc; exact hc.elim
    · intro _ hc; exact hc.elim
    · cases convertTendencies R state l <;> cases convertTendencies R state l'
      · intro ih _; exact ih
      · intro ih _; exact ih.elim
      · intro ih _; exact ih.elim
      · rename_i x y xs ys
        intro ih hc
        show Dict.mapVal DataArray.bare ((ka, x) :: xs) = Dict.mapVal DataArray.bare ((ka, y) :: ys)
        have hc : x.bare = y.bare := hc
        have ih : Dict.mapVal DataArray.bare xs = Dict.mapVal DataArray.bare ys := ih
        show (ka, x.bare) :: Dict.mapVal DataArray.bare xs = (ka, y.bare) :: Dict.mapVal DataArray.bare ys
        rw [hc, ih]

/-! ## Steppers -/

/-- Two AdamsBashforth that differ at most in attributes of the kept tendencies. -/
def ABSim (a b : AB) : Prop :=
  a.order = b.order ∧ a.timestep = b.timestep ∧ a.hist.map bareDict = b.hist.map bareDict

theorem ab_call_same {R : Registry} (hF : R.Faithful) {p p' : Prog σ} (hp : SameButUnits R p p') {a b : AB}
    (hab : ABSim a b) (s : σ) (state : State) (dt : Int) :
    ABSim (AB.call R p a s state dt).1 (AB.call R p' b s state dt).1 ∧
    (AB.call R p a s state dt).2 = (AB.call R p' b s state dt).2 := by
  obtain ⟨ho, ht, hh⟩ := hab
  obtain ⟨hw, hr⟩ := hp s state dt
  unfold AB.call
  rw [← ht]
  split
  · simp only
    revert hr
    cases (p s state dt).2 <;> cases (p' s state dt).2
    · intro hr
      have hr : _ = _ := hr
      subst hr
      exact ⟨⟨ho, rfl, hh⟩, by rw [hw]⟩
    · intro hr; exact hr.elim
    · intro hr; exact hr.elim
    · rename_i r r'
      intro hr
      obtain ⟨hdiag, hts⟩ := hr
      have hc := convertTendencies_same hF state hts
      revert hc
      simp only
      cases convertTendencies R state r.1 <;> cases convertTendencies R state r'.1
      · intro hc
        have hc : _ = _ := hc
        subst hc
        exact ⟨⟨ho, rfl, hh⟩, by rw [hw]⟩
      · intro hc; exact hc.elim
      · intro hc; exact hc.elim
      · rename_i t t'
        intro hc
        have hc : bareDict t = bareDict t' := hc
        have hh' : (a.hist ++ [t]).map bareDict = (b.hist ++ [t']).map bareDict := by
          simp only [List.map_append, hh, List.map_cons, hc, List.map_nil]
        have hstep : performStep a.order (a.hist ++ [t]) state dt = performStep b.order (b.hist ++ [t']) state dt := by
          rw [← performStep_bare, ← performStep_bare b.order, hh', ho]
        have hlen : (a.hist ++ [t]).length = (b.hist ++ [t']).length := by
          have := congrArg List.length hh'
          rw [List.length_map, List.length_map] at this; exact this
        simp only
        rw [hstep, hdiag, hlen, ho]
        cases performStep b.order (b.hist ++ [t']) state dt with
        | error e => exact ⟨⟨rfl, rfl, hh'⟩, by rw [hw]⟩
        | ok new =>
          refine ⟨?_, by rw [hw]⟩
          simp only
          split
          · refine ⟨rfl, rfl, ?_⟩
            simp only
            rw [List.map_tail, List.map_tail, hh']
          · exact ⟨rfl, rfl, hh'⟩
  · exact ⟨⟨ho, ht, hh⟩, rfl⟩

/-- C39 (AdamsBashforth): for components that differ only in the units of their
tendencies, every history of calls has the same results. -/
theorem ab_units_irrelevant {R : Registry} (hF : R.Faithful) {p p' : Prog σ} (hp : SameButUnits R p p')
    (order : Nat) (s : σ) (calls : List (State × Int)) :
    (abTrace R p { order := order } s calls).map (·.res) = (abTrace R p' { order := order } s calls).map (·.res) := by
  have gen : ∀ (calls : List (State × Int)) (a b : AB) (s : σ), ABSim a b →
      (abTrace R p a s calls).map (·.res) = (abTrace R p' b s calls).map (·.res) := by
    intro calls
    induction calls with
    | nil => intro a b s _; rfl
    | cons sd calls ih =>
      intro a b s hab
      obtain ⟨state, dt⟩ := sd
      obtain ⟨h1, h2⟩ := ab_call_same hF hp hab s state dt
      rw [abTrace, abTrace, List.map_cons, List.map_cons, h2, ih _ _ _ h1]
  exact gen calls _ _ s ⟨rfl, rfl, rfl⟩

/-- C39 (Leapfrog): the same stepper, state and results. -/
theorem lf_units_irrelevant {R : Registry} (hF : R.Faithful) {p p' : Prog σ} (hp : SameButUnits R p p')
    (lf : LF) (s : σ) (state : State) (dt : Int) : LF.call R p lf s state dt = LF.call R p' lf s state dt := by
  obtain ⟨hw, hr⟩ := hp s state dt
  unfold LF.call
  split
  · simp only
    revert hr
    cases (p s state dt).2 <;> cases (p' s state dt).2
    · intro hr
      have hr : _ = _ := hr
      subst hr
      rw [hw]
    · intro hr; exact hr.elim
    · intro hr; exact hr.elim
    · rename_i r r'
      intro hr
      obtain ⟨hdiag, hts⟩ := hr
      have hc := convertTendencies_same hF state hts
      revert hc
      simp only
      cases convertTendencies R state r.1 <;> cases convertTendencies R state r'.1
      · intro hc
        have hc : _ = _ := hc
        subst hc
        rw [hw]
      · intro hc; exact hc.elim
      · intro hc; exact hc.elim
      · rename_i t t'
        intro hc
        have hc : bareDict t = bareDict t' := hc
        have he : stepEuler state t dt = stepEuler state t' dt := by
          rw [← stepEuler_bare, hc, stepEuler_bare]
        have hl : ∀ old, stepLeapfrog lf.strength lf.alpha old t dt t.keys state [] =
            stepLeapfrog lf.strength lf.alpha old t' dt t'.keys state [] := by
          intro old
          rw [← stepLeapfrog_bare, hc, stepLeapfrog_bare, ← keys_bareDict t, hc, keys_bareDict]
        simp only
        rw [he, hdiag, hw]
        simp only [hl]
  · rfl

theorem euler_call_same {R : Registry} (hF : R.Faithful) {p p' : Prog σ} (hp : SameButUnits R p p') {a b : AB}
    (hab : ABSim a b) (s : σ) (state : State) (dt : Int) :
    ABSim (eulerCall R p a s state dt).1 (eulerCall R p' b s state dt).1 ∧
    (eulerCall R p a s state dt).2 = (eulerCall R p' b s state dt).2 := by
  obtain ⟨h1, h2⟩ := ab_call_same hF hp hab s state dt
  unfold eulerCall
  refine ⟨h1, ?_⟩
  simp only
  rw [h2]

/-- C39 (SSPRungeKutta): the same results, and steppers that differ at most in
attributes of tendencies (kept only after a failed stage). -/
theorem ssprk_units_irrelevant {R : Registry} (hF : R.Faithful) {p p' : Prog σ} (hp : SameButUnits R p p')
    (three : Bool) {a b : AB} (hab : ABSim a b) (s : σ) (state : State) (dt : Int) :
    ABSim (ssprkCall R p three a s state dt).1 (ssprkCall R p' three b s state dt).1 ∧
    (ssprkCall R p three a s state dt).2 = (ssprkCall R p' three b s state dt).2 := by
  have step : ∀ (a b : AB) (s : σ) (state : State), ABSim a b → ∃ a' b' s' r, ABSim a' b' ∧
      eulerCall R p a s state dt = (a', s', r) ∧ eulerCall R p' b s state dt = (b', s', r) := by
    intro a b s state hab
    obtain ⟨h1, h2⟩ := euler_call_same hF hp hab s state dt
    exact ⟨_, _, _, _, h1, rfl, Prod.ext rfl h2.symm⟩
  unfold ssprkCall
  cases three with
  | true =>
    simp only [if_true]
    unfold ssprk3
    obtain ⟨a1, b1, s1, r1, hab1, e1, f1⟩ := step a b s state hab
    rw [e1, f1]
    cases r1 with
    | error e => exact ⟨hab1, rfl⟩
    | ok r1 =>
      obtain ⟨d1, st1⟩ := r1
      simp only
      obtain ⟨a2, b2, s2, r2, hab2, e2, f2⟩ := step a1 b1 s1 st1 hab1
      rw [e2, f2]
      cases r2 with
      | error e => exact ⟨hab2, rfl⟩
      | ok r2 =>
        obtain ⟨d2, st2⟩ := r2
        simp only
        cases (scaleState (3 / 4) state >>= fun x => scaleState (1 / 4) st2 >>= fun y => addStates x y) with
        | error e => exact ⟨hab2, rfl⟩
        | ok st =>
          simp only
          obtain ⟨a3, b3, s3, r3, hab3, e3, f3⟩ := step a2 b2 s2 st hab2
          rw [e3, f3]
          cases r3 with
          | error e => exact ⟨hab3, rfl⟩
          | ok r3 => exact ⟨hab3, rfl⟩
  | false =>
    simp only [Bool.false_eq_true, if_false]
    unfold ssprk2
    obtain ⟨a1, b1, s1, r1, hab1, e1, f1⟩ := step a b s state hab
    rw [e1, f1]
    cases r1 with
    | error e => exact ⟨hab1, rfl⟩
    | ok r1 =>
      obtain ⟨d1, st1⟩ := r1
      simp only
      obtain ⟨a2, b2, s2, r2, hab2, e2, f2⟩ := step a1 b1 s1 st1 hab1
      rw [e2, f2]
      cases r2 with
      | error e => exact ⟨hab2, rfl⟩
      | ok r2 => exact ⟨hab2, rfl⟩

/-- Expressing a tendency in other units with `to_units` gives the same rates. -/
theorem sameRate_of_toUnits {R : Registry} (hF : R.Faithful) {v w : DataArray} {u : String}
    (h : v.toUnits R u = .ok w) : SameRate R w v := by
  obtain ⟨own, ho, hd, hs, hph, a, b, ha, hb, hcase⟩ := toUnits_ok hF h
  rcases hcase with ⟨rfl, _⟩ | ⟨hattr, _⟩
  · exact Or.inl rfl
  · refine Or.inr ⟨hd, hs, u, own, ?_, ho, hph⟩
    rw [hattr, Dict.get?_set_self]

/-! ## Examples -/

/-- C39: components giving a tendency of `h` in m/s, and the same in km/s. -/
example : SameButUnits Demo.reg
    (fun (n : Nat) _ _ => (n + 1, .ok ([("h", Demo.hTend 1000)], [])))
    (fun (n : Nat) _ _ => (n + 1, .ok ([("h", { Demo.hTend 1 with attrs := [("units", "km s^-1")] })], []))) := by
  intro s state dt
  refine ⟨rfl, rfl, ?_⟩
  refine List.Forall₂.cons ⟨rfl, Or.inr ⟨rfl, rfl, "m s^-1", "km s^-1", rfl, rfl, ?_⟩⟩ List.Forall₂.nil
  intro idx
  refine ⟨_, _, rfl, rfl, rfl, ?_⟩
  show (1000 * ((idx.getD 0 0 : Nat) + 1 : ℚ)) * 1 + 0 = 1 * ((idx.getD 0 0 : Nat) + 1) * 1000 + 0
  ring

end Verif

import Verif.Props.Conservation
import Verif.Lemmas.NestedComposite
import Mathlib.Data.List.Forall2
/-!
# C86: budgets of components add up
-/

namespace Verif

variable {σ : Type}

/-- Tendencies in the units `u` per second, whatever units they are returned in. -/
def rateIn (R : Registry) (u : String → String) (t : Dict DataArray) : Values := fun q ix =>
  match t.get? q, R.parse (u q ++ " s^-1") with
  | some a, some b => physAt R ix a / b.scale
  | _, _ => 0

/-- One component: whatever the state and its memory, it returns tendencies of the
quantities `ks` in known units, and these change the budget at the rate `c`. -/
def Contributes (R : Registry) (B : Budget) (u : String → String) (f : State → σ → σ × Except Err TendOut)
    (ks : List String) (c : Rat) : Prop :=
  ∀ state s r, B.HasUnits u state → (f state s).2 = .ok r →
    (∀ q, q ∈ Dict.keys r.1 ↔ q ∈ ks) ∧ (Dict.keys r.1).Nodup ∧
    (∀ q a, Dict.get? r.1 q = some a → a.WF ∧
      ∃ own w, a.attrs.get? "units" = some own ∧ R.parse own = some w ∧ w.offset = 0) ∧
    B.total (rateIn R u r.1) = c

theorem runAll_forall₂ {α : Type} {fs : List (σ → σ × Except Err α)} {s s' : σ} {rs : List α}
    (h : runAll fs s = (s', .ok rs)) : List.Forall₂ (fun f r => ∃ w, (f w).2 = .ok r) fs rs := by
  induction fs generalizing s rs with
  | nil =>
    unfold runAll at h
    simp only [Prod.mk.injEq, Except.ok.injEq] at h
    rw [← h.2]
    exact List.Forall₂.nil
  | cons f fs ih =>
    unfold runAll at h
    cases hf : (f s).2 with
    | error e => rw [hf] at h; simp at h
    | ok r =>
      rw [hf] at h
      dsimp only at h
      cases hr : (runAll fs (f s).1).2 with
      | error e => rw [hr] at h; simp at h
      | ok rs' =>
        rw [hr] at h
        simp only [Prod.mk.injEq, Except.ok.injEq] at h
        rw [← h.2]
        exact List.Forall₂.cons ⟨s, hf⟩ (ih (Prod.ext h.1 hr))

theorem Budget.total_list_sum {α : Type} (B : Budget) (l : List α) (f : α → Values) :
    B.total (fun q ix => (l.map fun x => f x q ix).sum) = (l.map fun x => B.total (f x)).sum := by
  induction l with
  | nil => simpa using B.total_zero
  | cons x l ih =>
    simp only [List.map_cons, List.sum_cons]
    rw [B.total_add, ih]

theorem sum_rateIn (R : Registry) (u : String → String) (q : String) (ix : String → Nat) {b : PintUnit}
    (hb : R.parse (u q ++ " s^-1") = some b) (rs : List TendOut) :
    (rs.map fun r => rateIn R u r.1 q ix).sum =
      ((contribs q (rs.map (·.1))).map (physAt R ix)).sum / b.scale := by
  induction rs with
  | nil => simp [contribs]
  | cons r rs ih =>
    rw [List.map_cons, List.sum_cons, ih]
    unfold rateIn contribs
    rw [hb, List.map_cons, List.filterMap_cons]
    cases hg : Dict.get? r.1 q with
    | none => simp
    | some a =>
      simp only [List.map_cons, List.sum_cons]
      rw [add_div]

/-- **C86.**  If each component of an ImplicitTendencyComponentComposite (as in every
time stepper) changes a budget at a fixed rate, the composite changes it at the sum of
the rates, whatever units and dims the components use. -/
theorem composite_budgets {R : Registry} (hR : R.Faithful) {dt : Int} {B : Budget} {u : String → String}
    (parts : List (Comp σ × List String × Rat))
    (hp : ∀ p ∈ parts, Contributes R B u (fun state => implicitCall p.1 state dt) p.2.1 p.2.2)
    (hu : ∀ b ∈ B, ∀ w, R.parse (u b.2.1 ++ " s^-1") = some w → w.offset = 0) :
    Budgeted R (callImplicitComposite R (parts.map (·.1))) dt (parts.flatMap (·.2.1)) B u
      ((parts.map (·.2.2)).sum) := by
  intro s state r t hs hr ht
  rcases hz : callImplicitComposite R (parts.map (·.1)) s state dt with ⟨s', o⟩
  rw [hz] at hr
  dsimp only at hr
  subst hr
  obtain ⟨tt, d⟩ := r
  unfold callImplicitComposite at hz
  rw [List.map_map] at hz
  have hret : ∀ rs, (runAll (parts.map ((fun c => implicitCall c state dt) ∘ (·.1))) s).2 = .ok rs →
      List.Forall₂ (fun (p : Comp σ × List String × Rat) r => (∀ q, q ∈ Dict.keys r.1 ↔ q ∈ p.2.1) ∧
        (Dict.keys r.1).Nodup ∧ (∀ q a, Dict.get? r.1 q = some a → a.WF ∧
          ∃ own w, a.attrs.get? "units" = some own ∧ R.parse own = some w ∧ w.offset = 0) ∧
        B.total (rateIn R u r.1) = p.2.2) parts rs := by
    intro rs hrs
    have h1 := runAll_forall₂ (Prod.ext rfl hrs :
      runAll (parts.map ((fun c => implicitCall c state dt) ∘ (·.1))) s = (_, .ok rs))
    rw [List.forall₂_map_left_iff] at h1
    rw [List.forall₂_iff_get] at h1 ⊢
    refine ⟨h1.1, ?_⟩
    intro i hi hi'
    obtain ⟨w, hw⟩ := h1.2 i hi hi'
    exact hp _ (List.get_mem _ _) state w _ hs hw
  have hmem : ∀ rs, (runAll (parts.map ((fun c => implicitCall c state dt) ∘ (·.1))) s).2 = .ok rs →
      ∀ r ∈ rs, (Dict.keys r.1).Nodup ∧ ∀ q a, Dict.get? r.1 q = some a → a.WF ∧
          ∃ own w, a.attrs.get? "units" = some own ∧ R.parse own = some w ∧ w.offset = 0 := by
    intro rs hrs r hr
    have h1 := hret rs hrs
    rw [List.forall₂_iff_get] at h1
    obtain ⟨i, hi, rfl⟩ := List.mem_iff_get.1 hr
    have := h1.2 i (by rw [h1.1]; exact i.2) i.2
    exact ⟨this.2.1, this.2.2.1⟩
  obtain ⟨rs, hrun, hsum⟩ := composite_tendencies_sum R hR _ s s' tt d
    (fun rs hrs r hr => ⟨(hmem rs hrs r hr).1, fun n a hna => ((hmem rs hrs r hr).2 n a hna).1⟩) hz
  have hfa := hret rs (by rw [hrun])
  have hmm := hmem rs (by rw [hrun])
  obtain ⟨hk, hconv⟩ := convertTendencies_ok ht
  dsimp only at hk hconv
  refine ⟨?_, ?_⟩
  · intro q
    rw [hk, (hsum q).1, List.mem_flatMap]
    rw [List.forall₂_iff_get] at hfa
    constructor
    · rintro ⟨r, hr, hq⟩
      obtain ⟨i, hi, rfl⟩ := List.mem_iff_get.1 hr
      have := hfa.2 i (by rw [hfa.1]; exact i.2) i.2
      exact ⟨_, List.get_mem _ _, (this.1 q).1 hq⟩
    · rintro ⟨p, hpm, hq⟩
      obtain ⟨i, hi, rfl⟩ := List.mem_iff_get.1 hpm
      have := hfa.2 i i.2 (by rw [← hfa.1]; exact i.2)
      exact ⟨_, List.get_mem _ _, (this.1 q).2 hq⟩
  · have hval : ∀ b ∈ B, tval t b.2.1 b.2.2 = (rs.map fun r => rateIn R u r.1 b.2.1 b.2.2).sum := by
      rintro ⟨w, q, ix⟩ hb
      show tval t q ix = (rs.map fun r => rateIn R u r.1 q ix).sum
      cases hg : tt.get? q with
      | none =>
        have hnot : q ∉ tt.keys := (Dict.get?_eq_none_iff _ _).1 hg
        have htn : t.get? q = none := (Dict.get?_eq_none_iff _ _).2 (by rw [hk]; exact hnot)
        have hz' : (rs.map fun r => rateIn R u r.1 q ix) = rs.map fun _ => (0 : Rat) := by
          apply List.map_congr_left
          intro r hr
          have : Dict.get? r.1 q = none := by
            apply (Dict.get?_eq_none_iff _ _).2
            intro hq
            exact hnot ((hsum q).1.2 ⟨r, hr, hq⟩)
          unfold rateIn
          rw [this]
        rw [hz']
        unfold tval
        rw [htn]
        simp
      | some v =>
        obtain ⟨v', hv', hcv⟩ := hconv q v hg
        obtain ⟨_, ⟨c0, rest, hc0, hattr⟩, _, _, hphys⟩ := (hsum q).2 v hg
        obtain ⟨r0, hr0, hgr⟩ := mem_contribs.1 (show c0 ∈ contribs q (rs.map (·.1)) by rw [hc0]; simp)
        obtain ⟨r0', hr0', rfl⟩ := List.mem_map.1 hr0
        obtain ⟨_, own, wu, hown, _, _⟩ := (hmm r0' hr0').2 q c0 hgr
        have hvo : v.attrs.get? "units" = some own := by rw [hattr]; exact hown
        unfold convertTendency at hcv
        rw [hvo] at hcv
        dsimp only at hcv
        obtain ⟨x, hx, hux⟩ := hs _ hb
        dsimp only at hx hux
        rw [State.da_ok.2 hx, Exc.ok_bind, Dict.get_eq_ok.2 hux, Exc.ok_bind] at hcv
        obtain ⟨own', a, bu, h1, h2, h3, _, h5⟩ := toUnits_at hR hcv ix
        rw [hvo] at h1
        cases h1
        have hb0 := hu _ hb bu h3
        have hpv : physAt R ix v = v.at' ix * a.scale + a.offset := by
          unfold physAt
          rw [hvo]
          simp [h2]
        have hmul : ∀ c ∈ contribs q (rs.map (·.1)), Multiplicative R c := by
          intro c hc own2 u2 ho hp2
          obtain ⟨d2, hd2, hgd⟩ := mem_contribs.1 hc
          obtain ⟨r2, hr2, rfl⟩ := List.mem_map.1 hd2
          obtain ⟨_, own3, w3, ho3, hp3, hw3⟩ := (hmm r2 hr2).2 q c hgd
          rw [ho] at ho3
          cases ho3
          rw [hp2] at hp3
          cases hp3
          exact hw3
        rw [sum_rateIn R u q ix h3 rs, ← hphys hmul ix, hpv, ← h5, hb0]
        have hne := ne_of_gt bu.scale_pos
        unfold tval
        rw [hv']
        field_simp
        ring
    rw [B.total_congr (w := fun q ix => (rs.map fun r => rateIn R u r.1 q ix).sum) hval, B.total_list_sum]
    clear hval hmm hconv hk hrun hsum hz hmem hret
    induction hfa with
    | nil => rfl
    | cons h _ ih =>
      simp only [List.map_cons, List.sum_cons]
      rw [h.2.2.2, ih (fun p hp' => hp p (List.mem_cons_of_mem _ hp'))]

/-- **C86, runs.**  A time stepper made of components each of which changes a budget at
a fixed rate changes it at the sum of the rates, with any of the schemes; what each
component conserves is conserved. -/
theorem stepper_budgets {R : Registry} (hR : R.Faithful) {dt : Int} {B : Budget} {u : String → String}
    (parts : List (Comp σ × List String × Rat))
    (hp : ∀ p ∈ parts, Contributes R B u (fun state => implicitCall p.1 state dt) p.2.1 p.2.2)
    (hu : ∀ b ∈ B, ∀ w, R.parse (u b.2.1 ++ " s^-1") = some w → w.offset = 0)
    {inProps outProps : PropDict} {inst : String} {tid : Bool} (n : Nat) (s : σ) (state : State)
    (hnd : (Dict.keys state).Nodup) (hT : state.TimeOk) (hs : B.HasUnits u state) :
    (∀ (k : Int) (ab ab' : AB) (s' : σ) (final : State), AB.make k = .ok ab →
      runSteps (tsCall R inProps outProps inst tid (abCall R (callImplicitComposite R (parts.map (·.1))))) dt n ab s
        state = some (ab', s', final) →
      B.total (State.val final) = B.total (State.val state) + n * (seconds dt * (parts.map (·.2.2)).sum)) ∧
    (∀ (strength alpha : Rat) (lf' : LF) (s' : σ) (final : State),
      runSteps (tsCall R inProps outProps inst tid (LF.call R (callImplicitComposite R (parts.map (·.1))))) dt n
        { strength := strength, alpha := alpha } s state = some (lf', s', final) →
      B.total (State.val final) = B.total (State.val state) + n * (seconds dt * (parts.map (·.2.2)).sum)) ∧
    (∀ (three : Bool) (ab' : AB) (s' : σ) (final : State),
      runSteps (tsCall R inProps outProps inst tid (sspCall R (callImplicitComposite R (parts.map (·.1))) three)) dt n
        { order := 1 } s state = some (ab', s', final) →
      B.total (State.val final) = B.total (State.val state) + n * (seconds dt * (parts.map (·.2.2)).sum)) := by
  have hS := composite_budgets hR parts hp hu
  have hd := composite_prog_dicts R (parts.map (·.1))
  exact ⟨fun k ab ab' s' final hk h => ab_conserves hS k ab hk n s s' state final ab' hs h,
    fun a b lf' s' final h => lf_conserves hd hS a b n s s' state final lf' hs h,
    fun three ab' s' final h => ssprk_conserves hd hS three n s s' state final ab' hnd hT hs h⟩

namespace Demo

def asComp (f : Nat → State → Nat × Except Err TendOut) : Comp Nat where
  cls := { kind := .tendency, inProps := [], outProps := [], diagProps := [] }
  obj := tendObj
  callT := f
  callI := fun s state _ => f s state

/-- Mixes `h` between levels, in km/s. -/
def mixer : Comp Nat := asComp fun n state => mixProg n state 0

/-- Raises `h` everywhere by 1 m/s. -/
def lifter : Comp Nat := asComp fun n _ => (n, .ok ([("h", rate 1)], []))

def parts : List (Comp Nat × List String × Rat) := [(mixer, ["h"], 0), (lifter, ["h"], 3 / 1000)]

theorem asComp_call (f : Nat → State → Nat × Except Err TendOut) (state : State) (dt : Int) (s : Nat) :
    implicitCall (asComp f) state dt s = f s state := by
  have h1 : isInstance .implicit (asComp f).obj = false := by
    show isInstance .implicit tendObj = false
    decide +kernel
  have h2 : isInstance .tendency (asComp f).obj = true := by
    show isInstance .tendency tendObj = true
    decide +kernel
  unfold implicitCall
  rw [h1, h2]
  rfl

theorem parse_of_test {s : String} {k : Rat}
    (h : ((reg.parse s).any fun b => decide (b.scale = k) && decide (b.offset = 0)) = true) :
    ∃ b, reg.parse s = some b ∧ b.scale = k ∧ b.offset = 0 := by
  cases hb : reg.parse s with
  | none => rw [hb] at h; simp at h
  | some b =>
    rw [hb] at h
    simp only [Option.any_some, Bool.and_eq_true, decide_eq_true_eq] at h
    exact ⟨b, rfl, h⟩

theorem km_parse : ∃ b, reg.parse ("km" ++ " s^-1") = some b ∧ b.scale = 1000 ∧ b.offset = 0 :=
  parse_of_test (by decide +kernel)

theorem physAt_mix (k : Rat) (ix : String → Nat) : physAt reg ix (mixTend k) = (mixTend k).at' ix * 1000 := by
  obtain ⟨b, hb, hs, ho⟩ := km_parse
  have e : ("km" ++ " s^-1" : String) = "km s^-1" := by decide
  have hun : (mixTend k).attrs.get? "units" = some "km s^-1" := rfl
  unfold physAt
  rw [hun]
  simp only [Option.bind_some]
  rw [← e, hb]
  simp only [hs, ho, add_zero]

theorem parts_contribute : ∀ p ∈ parts,
    Contributes reg column (fun _ => "km") (fun state => implicitCall p.1 state dt) p.2.1 p.2.2 := by
  obtain ⟨b, hb, hs, ho⟩ := km_parse
  intro p hp
  simp only [parts, List.mem_cons, List.not_mem_nil, or_false] at hp
  rcases hp with rfl | rfl
  · intro state s r _ hr
    dsimp only at hr
    unfold mixer at hr
    rw [asComp_call] at hr
    injection hr with hr; subst hr
    refine ⟨fun q => by simp [Dict.keys], List.nodup_singleton _, ?_, ?_⟩
    · intro q a hq
      obtain ⟨_, rfl⟩ : q = "h" ∧ a = _ := by simpa using Dict.mem_of_get? hq
      exact ⟨⟨rfl, by show ["z"].Nodup; simp⟩, "km s^-1", b, rfl, hb, ho⟩
    · have hr' : ∀ ix, rateIn reg (fun _ => "km") [("h", mixTend (s + State.val state "h" (fun _ => 2)))] "h" ix =
          (mixTend (s + State.val state "h" (fun _ => 2))).at' ix := by
        intro ix
        unfold rateIn
        rw [hb]
        show physAt reg ix (mixTend _) / b.scale = _
        rw [physAt_mix, hs]
        field_simp
      unfold Budget.total column
      simp only [List.map_cons, List.map_nil, List.sum_cons, List.sum_nil, hr']
      show 1 * (s + State.val state "h" (fun _ => 2)) + (1 * 0 + (1 * -(s + State.val state "h" (fun _ => 2)) + 0)) =
        (0 : Rat)
      ring
  · intro state s r _ hr
    dsimp only at hr
    unfold lifter at hr
    rw [asComp_call] at hr
    injection hr with hr; subst hr
    refine ⟨fun q => by simp [Dict.keys], List.nodup_singleton _, ?_, by decide +kernel⟩
    intro q a hq
    obtain ⟨_, rfl⟩ : q = "h" ∧ a = _ := by simpa using Dict.mem_of_get? hq
    obtain ⟨w, hw, _, h0⟩ := parse_of_test (s := "m s^-1") (k := 1) (by decide +kernel)
    exact ⟨⟨rfl, by show ["z"].Nodup; simp⟩, "m s^-1", w, rfl, hw, h0⟩

end Demo

/-- Non-vacuity: one component mixes in km/s, one lifts in m/s; in three steps of 1 s the
column gains 9 m. -/
example : Demo.columnOf (runSteps (tsCall Demo.reg Demo.tsProps Demo.tsProps "S" false
      (abCall Demo.reg (callImplicitComposite Demo.reg (Demo.parts.map (·.1))))) 1000000 3 { order := 3 } 0 Demo.state) =
        some (6 + 9 / 1000, 62033 / 8000) ∧
    (∀ p ∈ Demo.parts, Contributes Demo.reg Demo.column (fun _ => "km") (fun state => implicitCall p.1 state Demo.dt)
      p.2.1 p.2.2) :=
  ⟨by decide +kernel, Demo.parts_contribute⟩

end Verif

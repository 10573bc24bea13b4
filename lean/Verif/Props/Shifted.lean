import Verif.Spec.Shifted
import Verif.Props.Alike
import Verif.Spec.Demo
/-!
# Runs do not depend on the date (C123)
-/

namespace Verif

variable {V : Type}

theorem alike_self (A : Arith V) : Alike A A (fun _ v w => v = w) (fun _ v w => v = w) (fun _ v w => v = w) where
  attrsS h := by rw [h]
  attrsT h := by rw [h]
  container h := by rw [h]
  toUnitsS h u := by subst h; exact Exc.Rel.of_eq rfl
  toUnitsT h u := by subst h; exact Exc.Rel.of_eq rfl
  smulS h c := by rw [h]
  smulT h c := by rw [h]
  setAttrs h m := by rw [h]
  divide h c := by rw [h]
  addSS h h' := by subst h h'; exact Exc.Rel.of_eq rfl
  addST h h' := by subst h h'; exact Exc.Rel.of_eq rfl
  addTT h h' := by subst h h'; exact Exc.Rel.of_eq rfl
  subSS h h' := by subst h h'; exact Exc.Rel.of_eq rfl
  subTT h h' := by subst h h'; exact Exc.Rel.of_eq rfl
  iadd h h' := by subst h h'; exact Exc.Rel.of_eq rfl
  diag h _ := h

/-- The relation of `Props/Alike` that says that a state is another one moved in time. -/
abbrev ShiftRel (δ : Int) : EState V → EState V → Prop := PairRel (fun t t' => t' = t + δ) (fun _ v w => v = w)

theorem shiftRel_iff (δ : Int) (y z : EState V) : ShiftRel δ y z ↔ z = shiftState δ y := by
  constructor
  · intro h
    induction h with
    | nil => rfl
    | cons hab hl ih =>
      rename_i a b l l'
      obtain ⟨ka, va⟩ := a
      obtain ⟨kb, vb⟩ := b
      obtain ⟨hk, hv⟩ := hab
      simp only at hk hv
      subst hk
      rw [ih]
      cases va <;> cases vb
      · have hv : _ = _ := hv
        rw [hv]; rfl
      · exact hv.elim
      · exact hv.elim
      · have hv : _ = _ := hv
        rw [hv]; rfl
  · rintro rfl
    induction y with
    | nil => exact List.Forall₂.nil
    | cons e y ih =>
      obtain ⟨k, v⟩ := e
      refine List.Forall₂.cons ⟨rfl, ?_⟩ ih
      cases v <;> exact rfl

theorem keyRel_eq_iff {α : Type} (d e : Dict α) : KeyRel (fun _ v w => v = w) d e ↔ d = e := by
  constructor
  · intro h
    induction h with
    | nil => rfl
    | cons hab hl ih =>
      rename_i a b l l'
      obtain ⟨ka, va⟩ := a
      obtain ⟨kb, vb⟩ := b
      obtain ⟨hk, hv⟩ := hab
      simp only at hk hv
      rw [hk, hv, ih]
  · rintro rfl
    induction d with
    | nil => exact List.Forall₂.nil
    | cons e y ih => exact List.Forall₂.cons ⟨rfl, rfl⟩ ih

theorem dictRel_eq_iff {α : Type} (d e : Dict α) : DictRel (fun v w => v = w) d e ↔ d = e := keyRel_eq_iff d e

section
variable {σ : Type} {Z : σ → σ → Prop} {δ : Int} {p : ProgOver σ V}

theorem dateBlind_iff : DateBlind δ Z p ↔
    ProgPair (fun t t' => t' = t + δ) Z (fun _ v w => v = w) (fun _ v w => v = w) (fun _ v w => v = w) p p := by
  constructor
  · intro h s s' y y' dt hz hy
    have hy := (shiftRel_iff δ y y').1 hy
    subst hy
    obtain ⟨h1, h2⟩ := h s s' y dt hz
    refine ⟨h1, ?_⟩
    rw [← h2]
    cases (p s y dt).2 with
    | error e => rfl
    | ok r => exact ⟨(keyRel_eq_iff _ _).2 rfl, (dictRel_eq_iff _ _).2 rfl⟩
  · intro h s s' y dt hz
    obtain ⟨h1, h2⟩ := h s s' y _ dt hz ((shiftRel_iff δ y _).2 rfl)
    refine ⟨h1, ?_⟩
    revert h2
    generalize (p s y dt).2 = r
    generalize (p s' (shiftState δ y) dt).2 = r'
    intro h2
    cases r with
    | error e =>
      cases r' with
      | error e' => exact congrArg _ h2
      | ok _ => exact h2.elim
    | ok r =>
      cases r' with
      | error e' => exact h2.elim
      | ok r' =>
        obtain ⟨t, d⟩ := r
        obtain ⟨t', d'⟩ := r'
        have e1 := (keyRel_eq_iff _ _).1 h2.1
        have e2 := (dictRel_eq_iff _ _).1 h2.2
        simp only at e1 e2
        rw [e1, e2]

theorem abPair_eq_iff (x y : ABOver V) : ABPair (fun _ v w => v = w) x y ↔ y = x := by
  obtain ⟨o, t, h⟩ := x
  obtain ⟨o', t', h'⟩ := y
  constructor
  · rintro ⟨h1, h2, h3⟩
    simp only at h1 h2 h3
    subst h1 h2
    have : h = h' := by
      induction h3 with
      | nil => rfl
      | cons hab hl ih => rw [(keyRel_eq_iff _ _).1 hab, ih]
    rw [this]
  · intro e
    cases e
    refine ⟨rfl, rfl, ?_⟩
    induction h with
    | nil => exact List.Forall₂.nil
    | cons d l ih => exact List.Forall₂.cons ((keyRel_eq_iff _ _).2 rfl) ih

theorem lfPair_shift_iff (x y : LFOver V) :
    LFPair (fun t t' => t' = t + δ) (fun _ v w => v = w) x y ↔ y = shiftLF δ x := by
  obtain ⟨a, b, t, o⟩ := x
  obtain ⟨a', b', t', o'⟩ := y
  constructor
  · rintro ⟨h1, h2, h3, h4⟩
    simp only at h1 h2 h3 h4
    subst h1 h2 h3
    cases o with
    | none =>
      cases o' with
      | none => rfl
      | some _ => exact h4.elim
    | some o =>
      cases o' with
      | none => exact h4.elim
      | some o' =>
        have h4 : ShiftRel δ o o' := h4
        rw [(shiftRel_iff δ o o').1 h4]; rfl
  · intro e
    cases e
    refine ⟨rfl, rfl, rfl, ?_⟩
    cases o with
    | none => trivial
    | some o => exact (shiftRel_iff δ o _).2 rfl

/-- **Composites**: the date does not matter to a composite if it does not matter to its components. -/
theorem composite_dateBlind (A : Arith V) {cs : List (ProgOver σ V)} (h : ∀ p ∈ cs, DateBlind δ Z p) :
    DateBlind δ Z (compositeO A cs) := by
  refine dateBlind_iff.2 (composite_pair (alike_self A) ?_)
  induction cs with
  | nil => exact List.Forall₂.nil
  | cons p cs ih =>
    exact List.Forall₂.cons (dateBlind_iff.1 (h p List.mem_cons_self)) (ih (fun q hq => h q (List.mem_cons_of_mem _ hq)))

/-- **UpdateFrequencyWrapper**: the date does not matter to a component in a wrapper if it does not matter to the
component; the time of the last update is moved as well. -/
theorem updating_dateBlind (h : DateBlind δ Z p) (implicit : Bool) :
    DateBlind δ (fun w w' => Z w.1 w'.1 ∧ w'.2 = shiftUFW δ w.2) (updatingO implicit p) := by
  have hu := updating_pair (fun t t' u u' h h' => by subst h h'; omega) (dateBlind_iff.1 h) implicit
  refine dateBlind_iff.2 (fun w w' y y' dt hw hy => ?_)
  have hiff : ∀ w w' : σ × UFW (Dict V × Dict V), (Z w.1 w'.1 ∧ w'.2 = shiftUFW δ w.2) ↔
      UpdatingPair (fun t t' => t' = t + δ) Z (fun _ v w => v = w) (fun _ v w => v = w) w w' := by
    rintro ⟨s, d, c, l⟩ ⟨s', d', c', l'⟩
    constructor
    · rintro ⟨hz, e⟩
      cases e
      refine ⟨hz, rfl, ?_, ?_⟩
      · cases c with
        | none => exact .none
        | some c => exact .some ⟨(keyRel_eq_iff _ _).2 rfl, (dictRel_eq_iff _ _).2 rfl⟩
      · cases l with
        | none => exact .none
        | some l => exact .some rfl
    · rintro ⟨hz, hd, hc, hl⟩
      simp only at hz hd hc hl
      subst hd
      refine ⟨hz, ?_⟩
      have ec : c' = c := by
        cases hc with
        | none => rfl
        | some hc =>
          rename_i a b
          obtain ⟨t, d⟩ := a
          obtain ⟨t', d'⟩ := b
          have e1 : t = t' := (keyRel_eq_iff _ _).1 hc.1
          have e2 : d = d' := (dictRel_eq_iff _ _).1 hc.2
          rw [e1, e2]
      have el : l' = l.map (· + δ) := by
        cases hl with
        | none => rfl
        | some hl => exact congrArg some hl
      rw [ec, el]; rfl
  obtain ⟨h1, h2⟩ := hu w w' y y' dt ((hiff w w').1 hw) hy
  exact ⟨(hiff _ _).2 h1, h2⟩

theorem advance_shift (dt : Int) {y y' : EState V} (h : ShiftRel δ y y') : ShiftRel δ (advance dt y) (advance dt y') := by
  unfold advance
  rcases KeyRel.get? h "time" with ⟨h1, h2⟩ | ⟨v, w, h1, h2, hr⟩
  · rw [h1, h2]; exact h
  · rw [h1, h2]
    cases v <;> cases w
    · exact h
    · exact hr.elim
    · exact hr.elim
    · refine KeyRel.set h "time" ?_
      have hr : _ = _ := hr
      show _ = _
      omega

theorem sameButDate_of {τ : Type} {mem : τ → τ} {M : τ → τ → Prop} (hM : ∀ x y, M x y → y = mem x)
    {r r' : τ × σ × Except Err (EState V)} (h : RunPair (fun t t' => t' = t + δ) Z M (fun _ v w => v = w) r r') :
    SameButDate δ mem Z r r' := by
  obtain ⟨h1, h2, h3⟩ := h
  refine ⟨hM _ _ h1, h2, ?_⟩
  revert h3
  generalize r.2.2 = x
  generalize r'.2.2 = y
  intro h3
  cases x with
  | error e =>
    cases y with
    | error e' => exact (congrArg _ h3).symm
    | ok _ => exact h3.elim
  | ok x =>
    cases y with
    | error e' => exact h3.elim
    | ok y => exact congrArg Except.ok ((shiftRel_iff δ x y).1 h3)

/-- **C123.**  If the date does not matter to the components, then a run that starts `δ` later takes the same
steps: whatever the arithmetic, after any number of steps of AdamsBashforth, SSPRungeKutta or Leapfrog the state is that
of the other run with its time moved by `δ`, or the same exception was raised.  `between` is what the main loop does
with the diagnostics and the new state before it advances the time. -/
theorem runs_shifted (A : Arith V) (hp : DateBlind δ Z p) (inProps outProps : PropDict) (inst : String) (tid : Bool)
    (between : Dict V → EState V → EState V)
    (hb : ∀ d y, between d (shiftState δ y) = shiftState δ (between d y))
    (dt : Int) (n : Nat) {s s' : σ} (hz : Z s s') (y : EState V) :
    (∀ ab, SameButDate δ id Z
      (runOver (tsCallO A inProps outProps inst tid (abCallO A p)) (fun d y => advance dt (between d y)) dt n ab s y)
      (runOver (tsCallO A inProps outProps inst tid (abCallO A p)) (fun d y => advance dt (between d y)) dt n ab s'
        (shiftState δ y))) ∧
    (∀ three ab, SameButDate δ id Z
      (runOver (tsCallO A inProps outProps inst tid (sspCallO A p three)) (fun d y => advance dt (between d y)) dt n ab s y)
      (runOver (tsCallO A inProps outProps inst tid (sspCallO A p three)) (fun d y => advance dt (between d y)) dt n ab s'
        (shiftState δ y))) ∧
    (∀ lf, SameButDate δ (shiftLF δ) Z
      (runOver (tsCallO A inProps outProps inst tid (LFOver.call A p)) (fun d y => advance dt (between d y)) dt n lf s y)
      (runOver (tsCallO A inProps outProps inst tid (LFOver.call A p)) (fun d y => advance dt (between d y)) dt n
        (shiftLF δ lf) s' (shiftState δ y))) := by
  have hA := alike_self A
  have hp' := dateBlind_iff.1 hp
  have hy := (shiftRel_iff δ y _).2 rfl
  have hb' : ∀ d d' y y', KeyRel (fun _ (v w : V) => v = w) d d' → ShiftRel δ y y' →
      ShiftRel δ (advance dt (between d y)) (advance dt (between d' y')) := by
    intro d d' y y' hd h
    have hd := (dictRel_eq_iff _ _).1 hd
    subst hd
    rw [(shiftRel_iff δ y y').1 h, hb]
    exact advance_shift dt ((shiftRel_iff δ _ _).2 rfl)
  refine ⟨fun ab => ?_, fun three ab => ?_, fun lf => ?_⟩
  · refine sameButDate_of (M := ABPair (fun _ v w => v = w)) (fun x y h => (abPair_eq_iff x y).1 h)
      (run_pair (fun x x' s s' y y' dt h hz h' => ?_) hb' dt n ((abPair_eq_iff _ _).2 rfl) hz hy)
    obtain ⟨h1, h2, h3⟩ := ab_pair hA hp' h hz h' dt
    exact stepper_pair hA _ inProps outProps inst tid dt ⟨h1, h2, h', h3⟩
  · refine sameButDate_of (M := ABPair (fun _ v w => v = w)) (fun x y h => (abPair_eq_iff x y).1 h)
      (run_pair (fun x x' s s' y y' dt h hz h' => ?_) hb' dt n ((abPair_eq_iff _ _).2 rfl) hz hy)
    obtain ⟨h1, h2, h3⟩ := ssprk_pair hA hp' three h hz h' dt
    exact stepper_pair hA _ inProps outProps inst tid dt ⟨h1, h2, h', h3⟩
  · refine sameButDate_of (M := LFPair (fun t t' => t' = t + δ) (fun _ v w => v = w))
      (fun x y h => (lfPair_shift_iff x y).1 h)
      (run_pair (fun x x' s s' y y' dt h hz h' => ?_) hb' dt n ((lfPair_shift_iff _ _).2 rfl) hz hy)
    exact stepper_pair hA _ inProps outProps inst tid dt (leapfrog_pair hA hp' h hz h' dt)

end

namespace Demo

/-- Exact numbers as arrays without axes and without units. -/
def numberArith : Arith Rat where
  add a b := .ok (a + b)
  sub a b := .ok (a - b)
  iadd a b := .ok (a + b)
  smul c a := c * a
  divide a c := a / c
  toUnits a _ := .ok a
  attrs _ := []
  setAttrs a _ := a
  isContainer _ := true

/-- The tendency of `T` is minus a tenth of its value. -/
def decays : ProgOver Unit Rat := fun s y _ => (s, EState.da y "T" >>= fun a => .ok ([("T", -a / 10)], []))

theorem decays_blind (δ : Int) : DateBlind δ Eq decays := by
  intro s s' y dt _
  refine ⟨rfl, ?_⟩
  have h : EState.da (shiftState δ y) "T" = EState.da y "T" := by
    unfold EState.da shiftState
    rw [Dict.get?_mapVal]
    cases Dict.get? y "T" with
    | none => rfl
    | some v => cases v <;> rfl
  show (EState.da y "T" >>= _) = (EState.da (shiftState δ y) "T" >>= _)
  rw [h]

/-- A state with a time. -/
def dated : EState Rat := [("T", .da 100), ("time", .time 5)]

/-- Non-vacuity: a component in an UpdateFrequencyWrapper of 2 s, in steps of 1 s; started a day later it gives the
same, and it does give something. -/
example :
    (∀ n, SameButDate 86400000000 id (fun w w' => w.1 = w'.1 ∧ w'.2 = shiftUFW 86400000000 w.2)
      (runOver (tsCallO numberArith [] [] "" false (abCallO numberArith (updatingO false decays)))
        (fun _ y => advance 1000000 y) 1000000 n { order := 2 } ((), { delta := 2000000 }) dated)
      (runOver (tsCallO numberArith [] [] "" false (abCallO numberArith (updatingO false decays)))
        (fun _ y => advance 1000000 y) 1000000 n { order := 2 } ((), { delta := 2000000 })
        (shiftState 86400000000 dated))) ∧
    Exc.test (runOver (tsCallO numberArith [] [] "" false (abCallO numberArith (updatingO false decays)))
        (fun _ y => advance 1000000 y) 1000000 3 { order := 2 } ((), { delta := 2000000 }) dated).2.2
      (fun y => (match Dict.get? y "T" with | some (.da a) => decide (a = 73) | _ => false) &&
        (match Dict.get? y "time" with | some (.time t) => decide (t = 3000005) | _ => false)) = true :=
  ⟨fun n => (runs_shifted numberArith (updating_dateBlind (decays_blind _) false) [] [] "" false (fun _ y => y)
      (fun _ _ => rfl) 1000000 n ⟨rfl, rfl⟩ dated).1 { order := 2 },
   by decide +kernel⟩

/-- The tendency of `T` is the time in seconds. -/
def readsClock : ProgOver Unit Rat := fun s y _ => (s, EState.clock y >>= fun t => .ok ([("T", seconds t)], []))

/-- The hypothesis is needed: a component that uses the time gives another run on another date. -/
theorem date_matters : ¬ ∀ (δ : Int) (y : EState Rat), SameButDate δ id Eq
    (runOver (tsCallO numberArith [] [] "" false (abCallO numberArith readsClock)) (fun _ y => advance 1000000 y) 1000000 1
      { order := 1 } () y)
    (runOver (tsCallO numberArith [] [] "" false (abCallO numberArith readsClock)) (fun _ y => advance 1000000 y) 1000000 1
      { order := 1 } () (shiftState δ y)) := by
  intro h
  have h := (h 1000000 dated).state
  have hl : Exc.test (runOver (tsCallO numberArith [] [] "" false (abCallO numberArith readsClock)) (fun _ y => advance 1000000 y)
      1000000 1 { order := 1 } () (shiftState 1000000 dated)).2.2
      (fun y => match Dict.get? y "T" with | some (.da a) => decide (a = 100 + 1000005 / 1000000) | _ => false) = true := by
    decide +kernel
  have hr : Exc.test (match (runOver (tsCallO numberArith [] [] "" false (abCallO numberArith readsClock)) (fun _ y => advance 1000000 y)
      1000000 1 { order := 1 } () dated).2.2 with
      | .ok y => .ok (shiftState 1000000 y)
      | .error e => .error e)
      (fun y => match Dict.get? y "T" with | some (.da a) => decide (a = 100 + 1000005 / 1000000) | _ => false) = false := by
    decide +kernel
  rw [h] at hl
  exact absurd (hl.symm.trans hr) (by decide)

end Demo
end Verif

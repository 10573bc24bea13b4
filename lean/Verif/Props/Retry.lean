import Verif.Spec.Retry
import Verif.Props.SteadyRuns
import Verif.Props.Leapfrog
import Verif.Props.UpdateFrequency
/-!
# C94: a failed call leaves no trace

A driver that catches an exception and goes on (with the same state, a corrected one or
a shorter list of components) gets from all later calls what it would have got had the
failed call never been made.
-/

namespace Verif

variable {σ τ α β : Type}

/-- If memories related by `E` give the same results and stay related, and a bad attempt
keeps the memory related to what it was, bad attempts can be left out. -/
theorem attempts_left_out {call : τ → α → τ × β} {E : τ → τ → Prop} {bad : α × β → Bool}
    (hsame : ∀ x y a, E x y → (call x a).2 = (call y a).2 ∧ E (call x a).1 (call y a).1)
    (hbad : ∀ x y a, E x y → bad (a, (call x a).2) = true → E (call x a).1 y) :
    ∀ (as : List α) (x y : τ), E x y →
      attempts call y (((attempts call x as).filter (fun p => !bad p)).map Prod.fst) =
        (attempts call x as).filter (fun p => !bad p) := by
  intro as
  induction as with
  | nil => intro x y _; rfl
  | cons a as ih =>
    intro x y h
    have he : attempts call x (a :: as) = (a, (call x a).2) :: attempts call (call x a).1 as := rfl
    rw [he, List.filter_cons]
    cases hb : bad (a, (call x a).2) with
    | true =>
      simp only [Bool.not_true, Bool.false_eq_true, if_false]
      exact ih _ y (hbad x y a h hb)
    | false =>
      simp only [Bool.not_false, if_true, List.map_cons]
      have he' : ∀ l, attempts call y (a :: l) = (a, (call y a).2) :: attempts call (call y a).1 l := fun _ => rfl
      rw [he', (hsame x y a h).1, ih _ _ (hsame x y a h).2]

/-! ## `TendencyStepper.__call__` adds no memory -/

/-- The call of a stepper through `TendencyStepper.__call__`. -/
def throughTs (R : Registry) (inProps outProps : PropDict) (inst : String) (tid : Bool)
    (call : Prog σ → τ → σ → State → Int → τ × StepSeen σ) (prog : Prog σ) : τ → σ → State → Int → τ × StepSeen σ :=
  tsCall R inProps outProps inst tid (call prog)

theorem throughTs_same {R : Registry} {inProps outProps : PropDict} {inst : String} {tid : Bool}
    {call : Prog σ → τ → σ → State → Int → τ × StepSeen σ} {prog : Prog σ} {x y : τ} {s : σ} {state : State} {dt : Int}
    (h : (call prog x s state dt).2 = (call prog y s state dt).2) :
    (throughTs R inProps outProps inst tid call prog x s state dt).2 =
      (throughTs R inProps outProps inst tid call prog y s state dt).2 := by
  unfold throughTs tsCall
  simp only [h]

theorem throughTs_memory (R : Registry) (inProps outProps : PropDict) (inst : String) (tid : Bool)
    (call : Prog σ → τ → σ → State → Int → τ × StepSeen σ) (prog : Prog σ) (x : τ) (s : σ) (state : State) (dt : Int) :
    (throughTs R inProps outProps inst tid call prog x s state dt).1 = (call prog x s state dt).1 := rfl

/-! ## AdamsBashforth -/

/-- Two timesteps a stepper may have remembered when all calls are made with `dt`. -/
abbrev OpenFor (dt : Int) (a : Option Int) : Prop := a = none ∨ a = some dt

/-- The same memory but for whether the timestep is known already. -/
def SameAB (dt : Int) (x y : AB) : Prop :=
  x.order = y.order ∧ x.hist = y.hist ∧ OpenFor dt x.timestep ∧ OpenFor dt y.timestep

theorem ab_same {R : Registry} {prog : Prog σ} {x y : AB} {s : σ} {state : State} {dt : Int} (h : SameAB dt x y) :
    (AB.call R prog x s state dt).2 = (AB.call R prog y s state dt).2 ∧
      SameAB dt (AB.call R prog x s state dt).1 (AB.call R prog y s state dt).1 := by
  obtain ⟨ho, hh, hx, hy⟩ := h
  obtain ⟨ox, tx, lx⟩ := x
  obtain ⟨oy, ty, ly⟩ := y
  simp only at ho hh hx hy
  subst ho hh
  have hc : AB.call R prog ⟨ox, tx, lx⟩ s state dt = AB.call R prog ⟨ox, ty, lx⟩ s state dt := by
    unfold AB.call
    simp only
    rw [if_pos hx, if_pos hy]
  rw [hc]
  refine ⟨rfl, rfl, rfl, ?_, ?_⟩ <;>
  · cases ab_outcome R prog ⟨ox, ty, lx⟩ s state dt with
    | rejected hts _ _ => exact absurd hy (by rintro (h | h); exacts [hts.1 h, hts.2 h])
    | early e _ hc _ => rw [hc]; exact Or.inr rfl
    | late t e _ _ _ hc => rw [hc]; exact Or.inr rfl
    | done t r new _ _ _ _ _ hc => rw [hc]; simp only; split <;> exact Or.inr rfl

theorem ab_failed {R : Registry} {x y : AB} {a : Attempt σ} {dt : Int} (h : SameAB dt x y)
    (hn : NoTendencies R dt a = true) : SameAB dt (AB.call R a.prog x a.world a.state dt).1 y := by
  obtain ⟨ho, hh, hx, hy⟩ := h
  unfold AB.call
  rw [if_pos hx]
  unfold NoTendencies at hn
  cases hr : (a.prog a.world a.state dt).2 with
  | error e => exact ⟨ho, hh, Or.inr rfl, hy⟩
  | ok r =>
    cases hc : convertTendencies R a.state r.1 with
    | error e => simp only [hc]; exact ⟨ho, hh, Or.inr rfl, hy⟩
    | ok t => simp [hr, hc] at hn

/-- C94 (AdamsBashforth): attempts with the same timestep of which the components gave no
usable tendencies can be left out. -/
theorem ab_failures_leave_no_trace (R : Registry) (inProps outProps : PropDict) (inst : String) (tid : Bool)
    (dt : Int) (ab : AB) (hts : ab.timestep = none ∨ ab.timestep = some dt) (as : List (Attempt σ)) :
    CanBeLeftOut (stepWith (throughTs R inProps outProps inst tid (abCall R)) dt) ab
      (fun p => NoTendencies R dt p.1) as := by
  refine attempts_left_out (E := SameAB dt) ?_ ?_ as ab ab ⟨rfl, rfl, hts, hts⟩
  · intro x y a h
    obtain ⟨h1, h2⟩ := ab_same (R := R) (prog := a.prog) (s := a.world) (state := a.state) h
    refine ⟨throughTs_same ?_, h2⟩
    unfold abCall
    simp only [h1]
  · intro x y a h hb
    exact ab_failed h hb

/-! ## Leapfrog -/

/-- The same memory but for whether the timestep is known already. -/
def SameLF (dt : Int) (x y : LF) : Prop :=
  x.strength = y.strength ∧ x.alpha = y.alpha ∧ x.old = y.old ∧ OpenFor dt x.timestep ∧ OpenFor dt y.timestep

theorem lf_call_timestep {R : Registry} {prog : Prog σ} {x : LF} {s : σ} {state : State} {dt : Int}
    (h : OpenFor dt x.timestep) : OpenFor dt (LF.call R prog x s state dt).1.timestep := by
  unfold LF.call
  rw [if_pos h]
  simp only
  split
  · exact Or.inr rfl
  · split
    · exact Or.inr rfl
    · split <;> split <;> exact Or.inr rfl

theorem lf_same {R : Registry} {prog : Prog σ} {x y : LF} {s : σ} {state : State} {dt : Int} (h : SameLF dt x y) :
    (LF.call R prog x s state dt).2 = (LF.call R prog y s state dt).2 ∧
      SameLF dt (LF.call R prog x s state dt).1 (LF.call R prog y s state dt).1 := by
  obtain ⟨hs, ha, ho, hx, hy⟩ := h
  obtain ⟨sx, ax, tx, ox⟩ := x
  obtain ⟨sy, ay, ty, oy⟩ := y
  simp only at hs ha ho hx hy
  subst hs ha ho
  have hc : LF.call R prog ⟨sx, ax, tx, ox⟩ s state dt = LF.call R prog ⟨sx, ax, ty, ox⟩ s state dt := by
    unfold LF.call
    simp only
    rw [if_pos hx, if_pos hy]
  have ht := lf_call_timestep (R := R) (prog := prog) (x := ⟨sx, ax, ty, ox⟩) (s := s) (state := state) hy
  rw [hc]
  exact ⟨rfl, rfl, rfl, rfl, ht, ht⟩

theorem lf_failed {R : Registry} {x y : LF} {a : Attempt σ} {dt : Int} (h : SameLF dt x y)
    (hn : NoTendencies R dt a = true) : SameLF dt (LF.call R a.prog x a.world a.state dt).1 y ∧
      (LF.call R a.prog x a.world a.state dt).2.2.1 = a.state := by
  obtain ⟨hs, ha, ho, hx, hy⟩ := h
  unfold LF.call
  rw [if_pos hx]
  unfold NoTendencies at hn
  cases hr : (a.prog a.world a.state dt).2 with
  | error e => exact ⟨⟨hs, ha, ho, Or.inr rfl, hy⟩, rfl⟩
  | ok r =>
    cases hc : convertTendencies R a.state r.1 with
    | error e => simp only [hc]; exact ⟨⟨hs, ha, ho, Or.inr rfl, hy⟩, trivial⟩
    | ok t => simp [hr, hc] at hn

/-- C94 (Leapfrog): attempts with the same timestep of which the components gave no
usable tendencies can be left out. -/
theorem lf_failures_leave_no_trace (R : Registry) (inProps outProps : PropDict) (inst : String) (tid : Bool)
    (dt : Int) (lf : LF) (hts : lf.timestep = none ∨ lf.timestep = some dt) (as : List (Attempt σ)) :
    CanBeLeftOut (stepWith (throughTs R inProps outProps inst tid (LF.call R)) dt) lf
      (fun p => NoTendencies R dt p.1) as := by
  refine attempts_left_out (E := SameLF dt) ?_ ?_ as lf lf ⟨rfl, rfl, rfl, hts, hts⟩
  · intro x y a h
    obtain ⟨h1, h2⟩ := lf_same (R := R) (prog := a.prog) (s := a.world) (state := a.state) h
    exact ⟨throughTs_same h1, h2⟩
  · intro x y a h hb
    exact (lf_failed h hb).1

/-! ## SSPRungeKutta -/

/-- Memories of the Euler stepper inside: whatever is in the history. -/
def SameEuler (dt : Int) (x y : AB) : Prop :=
  x.order = 1 ∧ y.order = 1 ∧ OpenFor dt x.timestep ∧ OpenFor dt y.timestep

/-- With order 1 only the last tendency counts. -/
theorem performStep_one (h1 h2 : List (Dict DataArray)) (t : Dict DataArray) (state : State) (dt : Int) :
    performStep 1 (h1 ++ [t]) state dt = performStep 1 (h2 ++ [t]) state dt := by
  have h : ∀ l : List (Dict DataArray), performStep 1 (l ++ [t]) state dt = stepEuler state t dt := by
    intro l
    unfold performStep
    have hm : min 1 (l ++ [t]).length = 1 := by simp
    rw [hm, List.reverse_append]
    cases l with
    | nil => rfl
    | cons a l => rfl
  rw [h, h]

theorem euler_memory {R : Registry} {prog : Prog σ} {x : AB} {s : σ} {state : State} {dt : Int}
    (h : OpenFor dt x.timestep) :
    (eulerCall R prog x s state dt).1.order = x.order ∧ OpenFor dt (eulerCall R prog x s state dt).1.timestep := by
  unfold eulerCall
  cases ab_outcome R prog x s state dt with
  | rejected hts _ _ => exact absurd h (by rintro (h | h); exacts [hts.1 h, hts.2 h])
  | early e _ hc _ => rw [hc]; exact ⟨rfl, Or.inr rfl⟩
  | late t e _ _ _ hc => rw [hc]; exact ⟨rfl, Or.inr rfl⟩
  | done t r new _ _ _ _ _ hc => rw [hc]; simp only; split <;> exact ⟨rfl, Or.inr rfl⟩

theorem euler_same {R : Registry} {prog : Prog σ} {x y : AB} {s : σ} {state : State} {dt : Int}
    (h : SameEuler dt x y) :
    (eulerCall R prog x s state dt).2 = (eulerCall R prog y s state dt).2 ∧
      SameEuler dt (eulerCall R prog x s state dt).1 (eulerCall R prog y s state dt).1 := by
  obtain ⟨ho, hp, hx, hy⟩ := h
  have mx := euler_memory (R := R) (prog := prog) (s := s) (state := state) hx
  have my := euler_memory (R := R) (prog := prog) (s := s) (state := state) hy
  refine ⟨?_, by rw [mx.1, ho], by rw [my.1, hp], mx.2, my.2⟩
  unfold eulerCall AB.call
  rw [if_pos hx, if_pos hy, ho, hp]
  simp only
  cases (prog s state dt).2 with
  | error e => rfl
  | ok r =>
    simp only
    cases convertTendencies R state r.1 with
    | error e => rfl
    | ok t =>
      simp only
      rw [performStep_one x.hist y.hist]
      cases performStep 1 (y.hist ++ [t]) state dt <;> rfl

theorem ssprk2_same {R : Registry} {prog : Prog σ} {x y : AB} {s : σ} {state : State} {dt : Int}
    (h : SameEuler dt x y) :
    (ssprk2 R prog x s state dt).2 = (ssprk2 R prog y s state dt).2 ∧
      SameEuler dt (ssprk2 R prog x s state dt).1 (ssprk2 R prog y s state dt).1 := by
  have h1 := euler_same (R := R) (prog := prog) (s := s) (state := state) h
  unfold ssprk2
  revert h1
  generalize eulerCall R prog x s state dt = a
  generalize eulerCall R prog y s state dt = b
  obtain ⟨x1, a⟩ := a
  obtain ⟨y1, b⟩ := b
  rintro ⟨rfl, h1⟩
  simp only at h1
  obtain ⟨s1, e | ⟨diag, state1⟩⟩ := a
  · exact ⟨rfl, h1⟩
  · simp only
    have h2 := euler_same (R := R) (prog := prog) (s := s1) (state := state1) h1
    revert h2
    generalize eulerCall R prog x1 s1 state1 dt = a
    generalize eulerCall R prog y1 s1 state1 dt = b
    obtain ⟨x2, a⟩ := a
    obtain ⟨y2, b⟩ := b
    rintro ⟨rfl, h2⟩
    obtain ⟨s2, e | ⟨diag, state2⟩⟩ := a
    · exact ⟨rfl, h2⟩
    · exact ⟨rfl, h2⟩

theorem ssprk3_same {R : Registry} {prog : Prog σ} {x y : AB} {s : σ} {state : State} {dt : Int}
    (h : SameEuler dt x y) :
    (ssprk3 R prog x s state dt).2 = (ssprk3 R prog y s state dt).2 ∧
      SameEuler dt (ssprk3 R prog x s state dt).1 (ssprk3 R prog y s state dt).1 := by
  have h1 := euler_same (R := R) (prog := prog) (s := s) (state := state) h
  unfold ssprk3
  revert h1
  generalize eulerCall R prog x s state dt = a
  generalize eulerCall R prog y s state dt = b
  obtain ⟨x1, a⟩ := a
  obtain ⟨y1, b⟩ := b
  rintro ⟨rfl, h1⟩
  simp only at h1
  obtain ⟨s1, e | ⟨diag, state1⟩⟩ := a
  · exact ⟨rfl, h1⟩
  · simp only
    have h2 := euler_same (R := R) (prog := prog) (s := s1) (state := state1) h1
    revert h2
    generalize eulerCall R prog x1 s1 state1 dt = a
    generalize eulerCall R prog y1 s1 state1 dt = b
    obtain ⟨x2, a⟩ := a
    obtain ⟨y2, b⟩ := b
    rintro ⟨rfl, h2⟩
    simp only at h2
    obtain ⟨s2, e | ⟨diag2, state15⟩⟩ := a
    · exact ⟨rfl, h2⟩
    · simp only
      generalize (scaleState (3 / 4) state >>= fun x => scaleState (1 / 4) state15 >>= fun y => addStates x y) = w
      cases w with
      | error e => exact ⟨rfl, h2⟩
      | ok state2 =>
        simp only
        have h3 := euler_same (R := R) (prog := prog) (s := s2) (state := state2) h2
        revert h3
        generalize eulerCall R prog x2 s2 state2 dt = a
        generalize eulerCall R prog y2 s2 state2 dt = b
        obtain ⟨x3, a⟩ := a
        obtain ⟨y3, b⟩ := b
        rintro ⟨rfl, h3⟩
        obtain ⟨s3, e | ⟨diag3, state25⟩⟩ := a
        · exact ⟨rfl, h3⟩
        · exact ⟨rfl, h3⟩

theorem ssprk_same {R : Registry} {prog : Prog σ} {three : Bool} {x y : AB} {s : σ} {state : State} {dt : Int}
    (h : SameEuler dt x y) :
    (ssprkCall R prog three x s state dt).2 = (ssprkCall R prog three y s state dt).2 ∧
      SameEuler dt (ssprkCall R prog three x s state dt).1 (ssprkCall R prog three y s state dt).1 := by
  unfold ssprkCall
  cases three
  · exact ssprk2_same h
  · exact ssprk3_same h

/-- The call of an SSPRungeKutta with the components as a parameter. -/
def sspWith (R : Registry) (three : Bool) (prog : Prog σ) : AB → σ → State → Int → AB × StepSeen σ :=
  sspCall R prog three

/-- C94 (SSPRungeKutta): attempts with the same timestep that raised, at whatever stage
and for whatever reason, can be left out. -/
theorem ssprk_failures_leave_no_trace (R : Registry) (inProps outProps : PropDict) (inst : String) (tid three : Bool)
    (dt : Int) (ab : AB) (ho : ab.order = 1) (hts : ab.timestep = none ∨ ab.timestep = some dt)
    (as : List (Attempt σ)) :
    CanBeLeftOut (stepWith (throughTs R inProps outProps inst tid (sspWith R three)) dt) ab Raised as := by
  have hs : ∀ (x y : AB) (a : Attempt σ), SameEuler dt x y → _ := fun x y a h =>
    ssprk_same (R := R) (three := three) (prog := a.prog) (s := a.world) (state := a.state) h
  refine attempts_left_out (E := SameEuler dt) ?_ ?_ as ab ab ⟨ho, ho, hts, hts⟩
  · intro x y a h
    obtain ⟨h1, h2⟩ := hs x y a h
    refine ⟨throughTs_same ?_, h2⟩
    unfold sspWith sspCall
    simp only [h1]
  · intro x y a h _
    obtain ⟨h1, h2⟩ := hs x y a h
    exact ⟨h2.1, h.2.1, h2.2.2.1, h.2.2.2⟩

/-! ## UpdateFrequencyWrapper -/

/-- A call of an UpdateFrequencyWrapper: the component as it behaves during the call, its
world, the state and the timestep. -/
structure UFAttempt (σ S Out : Type) where
  comp : σ → S → Option Int → σ × Except Err Out
  world : σ
  state : S
  dt : Option Int

def ufWith {S Out : Type} (time : S → Except Err Int) (w : UFW Out) (a : UFAttempt σ S Out) :
    UFW Out × σ × Except Err (Option Out) :=
  UFW.call time a.comp w a.world a.state a.dt

/-- A call of which the caller got an exception. -/
def UFRaised {S Out : Type} (p : UFAttempt σ S Out × σ × Except Err (Option Out)) : Bool :=
  match p.2.2 with
  | .error _ => true
  | .ok _ => false

/-- The same memory, or both to be refreshed at the next call. -/
def SameUFW {Out : Type} (x y : UFW Out) : Prop :=
  x.delta = y.delta ∧ x.last = y.last ∧ (x.last ≠ none → x.cached = y.cached)

theorem uf_same {S Out : Type} {time : S → Except Err Int} {x y : UFW Out} {a : UFAttempt σ S Out}
    (h : SameUFW x y) :
    (ufWith time x a).2 = (ufWith time y a).2 ∧ SameUFW (ufWith time x a).1 (ufWith time y a).1 ∧
      (UFRaised (a, (ufWith time x a).2) = true → SameUFW (ufWith time x a).1 y) := by
  obtain ⟨d, cx, l⟩ := x
  obtain ⟨d', cy, l'⟩ := y
  obtain ⟨h1, h2, h3⟩ := h
  simp only at h1 h2 h3
  subst h1 h2
  unfold ufWith UFW.call UFW.refresh
  cases l with
  | none =>
    simp only
    obtain ⟨s1, e | out⟩ := runComponent a.comp a.world a.state a.dt
    · exact ⟨by trivial, ⟨rfl, rfl, h3⟩, fun _ => ⟨rfl, rfl, h3⟩⟩
    · simp only
      cases time a.state with
      | error e => exact ⟨by trivial, ⟨rfl, rfl, fun _ => rfl⟩, fun _ => ⟨rfl, rfl, fun h => absurd rfl h⟩⟩
      | ok t => exact ⟨by trivial, ⟨rfl, rfl, fun _ => rfl⟩, fun h => by cases h⟩
  | some t0 =>
    have hc := h3 (by simp)
    subst hc
    simp only
    cases ht : time a.state with
    | error e => exact ⟨by trivial, ⟨rfl, rfl, fun _ => rfl⟩, fun _ => ⟨rfl, rfl, fun _ => rfl⟩⟩
    | ok t =>
      simp only
      split
      · obtain ⟨s1, e | out⟩ := runComponent a.comp a.world a.state a.dt
        · exact ⟨by trivial, ⟨rfl, rfl, fun _ => rfl⟩, fun _ => ⟨rfl, rfl, fun _ => rfl⟩⟩
        · exact ⟨by trivial, ⟨rfl, rfl, fun _ => rfl⟩, fun h => by cases h⟩
      · exact ⟨by trivial, ⟨rfl, rfl, fun _ => rfl⟩, fun h => by cases h⟩

/-- C94 (UpdateFrequencyWrapper): calls that raised can be left out. -/
theorem update_frequency_failures_leave_no_trace {S Out : Type} (time : S → Except Err Int) (w : UFW Out)
    (as : List (UFAttempt σ S Out)) : CanBeLeftOut (ufWith time) w UFRaised as :=
  attempts_left_out (call := ufWith time) (E := SameUFW) (bad := UFRaised) (fun _ _ _ h => ⟨(uf_same h).1, (uf_same h).2.1⟩)
    (fun _ _ _ h hb => (uf_same h).2.2 hb) as w w ⟨rfl, rfl, fun _ => rfl⟩

/-! ## Examples, and what the steppers do not guarantee -/

namespace Demo

/-- Components whose tendency of `h` grows with the square of the number of the attempt;
number 1 raises, number 2 gives a tendency of another quantity. -/
def flaky : Prog Nat := fun n _ _ =>
  (n + 1, if n = 1 then .error .runtimeError
    else if n = 2 then .ok ([("T", { temp with attrs := [("units", "K day^-1")] })], [])
    else .ok ([("h", hTend (1000 * n ^ 2))], []))

/-- Attempt number `n` -/
def flakyAt (n : Nat) : Attempt Nat := { prog := flaky, world := n, state := state }

/-- `h` at one place in what was seen of an attempt; `none` for an exception. -/
def seenH {α σ : Type} (p : α × StepSeen σ) : Option Rat :=
  match p.2.2.2 with
  | .ok o => some (State.val o.2 "h" (fun _ => 1))
  | .error _ => none

def tries {τ : Type} (call : Prog Nat → τ → Nat → State → Int → τ × StepSeen Nat) (x : τ) (ns : List Nat) :
    List (Option Rat) :=
  (attempts (stepWith (throughTs reg tsProps tsProps "S" false call) dt) x (ns.map flakyAt)).map seenH

end Demo

/-- C94: hypotheses met, attempt 1 does fail, and the other ones are the same with and
without it. -/
example : NoTendencies Demo.reg Demo.dt (Demo.flakyAt 1) = true ∧
    NoTendencies Demo.reg Demo.dt (Demo.flakyAt 3) = false ∧
    Demo.tries (abCall Demo.reg) { order := 3 } [0, 1, 3, 1, 4, 5] = [some 2, none, some 29, none, some (118 / 3), some (188 / 3)] ∧
    Demo.tries (abCall Demo.reg) { order := 3 } [0, 3, 4, 5] = [some 2, some 29, some (118 / 3), some (188 / 3)] := by
  refine ⟨?_, ?_, ?_, ?_⟩ <;> decide +kernel

/-- Likewise for Leapfrog, and for SSPRungeKutta with attempt 0 failing in its second
stage. -/
example : Demo.tries (LF.call Demo.reg) {} [0, 1, 3, 1, 4] = [some 2, none, some (751 / 20), none, some (52511 / 800)] ∧
    Demo.tries (LF.call Demo.reg) {} [0, 3, 4] = [some 2, some (751 / 20), some (52511 / 800)] ∧
    Demo.tries (sspWith Demo.reg false) { order := 1 } [0, 1, 3, 4] = [none, none, some 27, some 43] ∧
    Demo.tries (sspWith Demo.reg false) { order := 1 } [3, 4] = [some 27, some 43] := by
  refine ⟨?_, ?_, ?_, ?_⟩ <;> decide +kernel

/-- A call at time `t` of a wrapper whose component gives the time, and raises at 12. -/
def Demo.ufAt (t : Int) : UFAttempt Unit Int Int where
  comp := fun _ t _ => ((), if t = 12 then .error .runtimeError else .ok t)
  world := ()
  state := t
  dt := none

/-- C94: hypotheses met, and the second call does fail. -/
example : (attempts (ufWith (fun t => .ok t)) { delta := 10 } ([0, 12, 15, 21].map Demo.ufAt)).map UFRaised =
      [false, true, false, false] ∧
    (attempts (ufWith (fun t => .ok t)) { delta := 10 } ([0, 12, 15, 21].map Demo.ufAt)).map
      (fun p => Exc.test p.2.2 (· == some p.1.state)) = [true, false, true, false] := by decide +kernel

/-- Why only failures of the components for AdamsBashforth: a call whose tendencies were
found and whose step then raised is not without a trace (the tendencies stay in the
history, defect 5). -/
theorem ab_failed_step_leaves_trace : ∃ (R : Registry) (ab : AB) (as : List (Attempt Nat)),
    ab.timestep = none ∧
    ¬ CanBeLeftOut (stepWith (throughTs R Demo.tsProps Demo.tsProps "S" false (abCall R)) Demo.dt) ab Raised as := by
  refine ⟨Demo.reg, { order := 2 }, [0, 2, 3, 4].map Demo.flakyAt, rfl, fun h => ?_⟩
  have h := congrArg (List.map Demo.seenH) h
  revert h
  decide +kernel

end Verif

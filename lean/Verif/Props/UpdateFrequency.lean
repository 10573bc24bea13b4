import Verif.Spec.Wrappers
/-!
# C41: UpdateFrequencyWrapper
-/

namespace Verif

/-- What the wrapper remembers after the completed runs `runs`. -/
def UFW.After {Out : Type} (delta : Int) (runs : List (Int × Out)) (w : UFW Out) : Prop :=
  w.delta = delta ∧
  (runs = [] → w.last = none) ∧
  ∀ τ o rest, runs = (τ, o) :: rest → w.last = some τ ∧ w.cached = some o

theorem refresh_after {σ S Out : Type} {time : S → Except Err Int}
    {comp : σ → S → Option Int → σ × Except Err Out} {delta : Int} {runs : List (Int × Out)} {w : UFW Out}
    (hw : w.After delta runs) (s : σ) (x : S) (dt : Option Int) (t : Int) (ht : time x = .ok t) :
    (∃ s1 e, runComponent comp s x dt = (s1, .error e) ∧ w.refresh time comp s x dt = (w, s1, .error e)) ∨
    (∃ s1 o, runComponent comp s x dt = (s1, .ok o) ∧
      ∃ w', w.refresh time comp s x dt = (w', s1, .ok (some o)) ∧ w'.After delta ((t, o) :: runs)) := by
  unfold UFW.refresh
  rcases hr : runComponent comp s x dt with ⟨s1, r⟩
  cases r with
  | error e => exact Or.inl ⟨s1, e, rfl, rfl⟩
  | ok o =>
    refine Or.inr ⟨s1, o, rfl, { w with cached := some o, last := some t }, ?_, hw.1, fun h => (by cases h), ?_⟩
    · dsimp only
      rw [ht]
    intro τ o' rest h
    cases h
    exact ⟨rfl, rfl⟩

/-- One call of the wrapper: it runs the component exactly if output is due, and else
returns the output of the last completed run. -/
theorem uf_call {σ S Out : Type} {time : S → Except Err Int}
    {comp : σ → S → Option Int → σ × Except Err Out} {delta : Int} {runs : List (Int × Out)} {w : UFW Out}
    (hw : w.After delta runs) (s : σ) (x : S) (dt : Option Int) (t : Int) (ht : time x = .ok t) :
    (¬ Due delta runs t ∧ ∃ τ o rest, runs = (τ, o) :: rest ∧ w.call time comp s x dt = (w, s, .ok (some o))) ∨
    (Due delta runs t ∧ w.call time comp s x dt = w.refresh time comp s x dt) := by
  unfold UFW.call
  cases runs with
  | nil =>
    refine Or.inr ⟨fun τ o rest h => (by cases h), ?_⟩
    rw [hw.2.1 rfl]
  | cons kv rest =>
    obtain ⟨τ, o⟩ := kv
    obtain ⟨h1, h2⟩ := hw.2.2 τ o rest rfl
    rw [h1, ht, hw.1]
    by_cases hd : t ≥ τ + delta
    · refine Or.inr ⟨?_, by simp only [hd, if_true]⟩
      intro τ' o' rest' h
      cases h
      omega
    · refine Or.inl ⟨fun h => hd ?_, τ, o, rest, rfl, by simp only [hd, if_false, h2]⟩
      have := h τ o rest rfl
      omega

theorem uf_calls_spec {σ S Out : Type} (time : S → Except Err Int)
    (comp : σ → S → Option Int → σ × Except Err Out) (delta : Int) (calls : List (S × Option Int))
    (ht : ∀ c ∈ calls, ∃ t, time c.1 = .ok t) (runs : List (Int × Out)) (w : UFW Out)
    (hw : w.After delta runs) (s : σ) :
    ∃ runs', UFSpec time delta (runComponent comp) runs s calls (ufCalls time comp calls w s).2.2 runs'
      (ufCalls time comp calls w s).2.1 := by
  induction calls generalizing runs w s with
  | nil => exact ⟨runs, .done⟩
  | cons c calls ih =>
    obtain ⟨x, dt⟩ := c
    obtain ⟨t, htx⟩ := ht (x, dt) (by simp)
    have ih' := fun runs w hw s => ih (fun c hc => ht c (List.mem_cons_of_mem _ hc)) runs w hw s
    dsimp only [ufCalls]
    rcases uf_call (comp := comp) hw s x dt t htx with ⟨hd, τ, o, rest, hr, hc⟩ | ⟨hd, hc⟩
    · rw [hc]
      obtain ⟨runs', h⟩ := ih' runs w hw s
      exact ⟨runs', .kept htx hr hd h⟩
    · rw [hc]
      rcases refresh_after (comp := comp) hw s x dt t htx with ⟨s1, e, h1, h2⟩ | ⟨s1, o, h1, w', h2, h3⟩
      · rw [h2]
        obtain ⟨runs', h⟩ := ih' runs w hw s1
        exact ⟨runs', .raised htx hd h1 h⟩
      · rw [h2]
        obtain ⟨runs', h⟩ := ih' _ w' h3 s1
        exact ⟨runs', .ran htx hd h1 h⟩

/-- **C41.**  Any sequence of calls of a new wrapper, on states with a time: the
component is run exactly on the calls where output is due (the first ones until a run
completes, and those at least `delta` after the last completed run), every other call
leaves the component alone and returns the output of the last completed run, and a run
that raises does not count. -/
theorem update_frequency_exact {σ S Out : Type} (time : S → Except Err Int)
    (comp : σ → S → Option Int → σ × Except Err Out) (delta : Int) (calls : List (S × Option Int))
    (ht : ∀ c ∈ calls, ∃ t, time c.1 = .ok t) (s : σ) :
    ∃ runs', UFSpec time delta (runComponent comp) [] s calls (ufCalls time comp calls { delta := delta } s).2.2
      runs' (ufCalls time comp calls { delta := delta } s).2.1 :=
  uf_calls_spec time comp delta calls ht [] _ ⟨rfl, fun _ => rfl, fun _ _ _ h => (by cases h)⟩ s

/-- Runs, newest first, each at least `delta` after the one before. -/
def RunsApart {Out : Type} (delta : Int) : List (Int × Out) → Prop
  | a :: b :: rest => a.1 - b.1 ≥ delta ∧ RunsApart delta (b :: rest)
  | _ => True

/-- **C41.**  Consecutive completed runs are at least `delta` apart. -/
theorem update_frequency_apart {σ S Out : Type} {time : S → Except Err Int} {delta : Int}
    {run : σ → S → Option Int → σ × Except Err Out} {runs runs' : List (Int × Out)} {s s' : σ}
    {calls : List (S × Option Int)} {results : List (Except Err (Option Out))}
    (h : UFSpec time delta run runs s calls results runs' s') (hr : RunsApart delta runs) :
    RunsApart delta runs' := by
  induction h with
  | done => exact hr
  | kept _ _ _ _ ih => exact ih hr
  | @ran runs s x dt t o s1 calls results runs' s' ht hd _ _ ih =>
    apply ih
    cases runs with
    | nil => trivial
    | cons a rest => exact ⟨hd a.1 a.2 rest rfl, hr⟩
  | raised _ _ _ _ ih => exact ih hr

/-- **C41.**  How the component is run: with the timestep if one is given; if that
raises TypeError, again without it. -/
theorem update_frequency_timestep {σ S Out : Type} (comp : σ → S → Option Int → σ × Except Err Out)
    (s : σ) (x : S) :
    runComponent comp s x none = comp s x none ∧
    ∀ dt, ((comp s x (some dt)).2 ≠ .error .typeError → runComponent comp s x (some dt) = comp s x (some dt)) ∧
      ((comp s x (some dt)).2 = .error .typeError →
        runComponent comp s x (some dt) = comp (comp s x (some dt)).1 x none) := by
  refine ⟨rfl, fun dt => ?_⟩
  have h : runComponent comp s x (some dt) = match comp s x (some dt) with
    | (s1, .error .typeError) => comp s1 x none
    | r => r := rfl
  rw [h]
  rcases comp s x (some dt) with ⟨s1, r⟩
  cases r with
  | ok o => exact ⟨fun _ => rfl, fun h => (by cases h)⟩
  | error e =>
    by_cases he : e = .typeError
    · subst he
      exact ⟨fun h => absurd rfl h, fun _ => rfl⟩
    · refine ⟨fun _ => ?_, fun h => absurd (by injection h) he⟩
      cases e <;> first | rfl | exact absurd rfl he

/-- **C41.**  A state without a time: the call always raises, and if no run has been
completed the component is run nevertheless, without counting. -/
theorem update_frequency_no_time {σ S Out : Type} {time : S → Except Err Int}
    {comp : σ → S → Option Int → σ × Except Err Out} {delta : Int} {runs : List (Int × Out)} {w : UFW Out}
    (hw : w.After delta runs) (s : σ) (x : S) (dt : Option Int) {e : Err} (ht : time x = .error e) :
    (∃ e', (w.call time comp s x dt).2.2 = .error e') ∧ (w.call time comp s x dt).1.After delta runs ∧
    (w.call time comp s x dt).2.1 = if runs = [] then (runComponent comp s x dt).1 else s := by
  unfold UFW.call
  cases runs with
  | nil =>
    rw [hw.2.1 rfl]
    unfold UFW.refresh
    rcases hr : runComponent comp s x dt with ⟨s1, r⟩
    cases r with
    | error e => exact ⟨⟨e, rfl⟩, hw, by simp⟩
    | ok o =>
      dsimp only
      rw [ht]
      exact ⟨⟨e, rfl⟩, ⟨hw.1, fun _ => hw.2.1 rfl, fun _ _ _ h => (by cases h)⟩, by simp⟩
  | cons kv rest =>
    obtain ⟨τ, o⟩ := kv
    obtain ⟨h1, h2⟩ := hw.2.2 τ o rest rfl
    rw [h1, ht]
    exact ⟨⟨e, rfl⟩, hw, by simp⟩

namespace Demo

/-- A component that counts its runs, returns the time of its state, and fails at
time 100. -/
def counting (n : Nat) (t : Int) (_ : Option Int) : Nat × Except Err Int :=
  (n + 1, if t = 100 then .error .user else .ok t)

/-- Calls at 0, 59, 60, 30, 100 (fails), 119, 120. -/
def ufDemo : List (Int × Option Int) :=
  [(0, none), (59, some 1), (60, none), (30, none), (119, none), (100, none), (120, none), (220, none)]

end Demo

/-- Runs at 0, 60 and 120. -/
example : (ufCalls (fun t => .ok t) Demo.counting Demo.ufDemo { delta := 60 } 0).2 =
    (4, [.ok (some 0), .ok (some 0), .ok (some 60), .ok (some 60), .ok (some 60), .ok (some 60),
      .ok (some 120), .ok (some 220)]) := by rfl

/-- A run that raises does not count: the next call runs again. -/
example : (ufCalls (fun t => .ok t) Demo.counting [(0, none), (100, none), (101, none), (102, none)]
    { delta := 60 } 0).2 = (3, [.ok (some 0), .error .user, .ok (some 101), .ok (some 101)]) := by rfl

end Verif

import Verif.Props.Composite
import Verif.Props.DuckType
/-!
# C79, C80: what composites accept, and MonitorComposite
-/

namespace Verif

/-! ## C79 -/

/-- **C79, ImplicitTendencyComponentComposite.**  It accepts a duck-typed object exactly
if it can be called and has the interface of the tendency components; it does not matter
whether the call takes a timestep. -/
theorem implicit_composite_accepts (o : Obj) (hb : o.bases = []) (hwf : ∀ s, o.call = some s → s.WF) :
    acceptedBy .implicit o = true ↔ (∃ s, o.call = some s) ∧ Interface .implicit o := by
  unfold acceptedBy
  simp only [Bool.or_eq_true]
  rw [duck_type_iff .tendency o hb hwf, duck_type_iff .implicit o hb hwf]
  constructor
  · rintro (⟨s, hs, hi, _⟩ | ⟨s, hs, hi, _⟩) <;> exact ⟨⟨s, hs⟩, hi⟩
  · rintro ⟨⟨s, hs⟩, hi⟩
    by_cases ht : "timestep" ∈ s.args
    · exact .inr ⟨s, hs, hi, .inl ⟨fun _ => ht, fun _ => trivial⟩⟩
    · exact .inl ⟨s, hs, hi, .inl ⟨fun h => h.elim, fun h => absurd h ht⟩⟩

/-- **C79, the other composites.**  They accept a duck-typed object exactly if it has the
interface of their kind and can be called without a timestep. -/
theorem plain_composite_accepts (k : Kind) (hk : k = .tendency ∨ k = .diagnostic) (o : Obj) (hb : o.bases = [])
    (hwf : ∀ s, o.call = some s → s.WF) :
    acceptedBy k o = true ↔
      ∃ s, o.call = some s ∧ Interface k o ∧ ("timestep" ∈ s.args → TimestepOptional s) := by
  have e : acceptedBy k o = isInstance k o := by
    rcases hk with rfl | rfl <;> rfl
  have hn : ¬ NeedsTimestep k := by
    rcases hk with rfl | rfl <;> exact id
  rw [e, duck_type_iff k o hb hwf]
  constructor
  · rintro ⟨s, hs, hi, h⟩
    refine ⟨s, hs, hi, fun ht => ?_⟩
    rcases h with h | h
    · exact absurd (h.2 ht) hn
    · exact h
  · rintro ⟨s, hs, hi, h⟩
    refine ⟨s, hs, hi, ?_⟩
    by_cases ht : "timestep" ∈ s.args
    · exact .inr (h ht)
    · exact .inl ⟨fun h => absurd h hn, fun h => absurd h ht⟩

/-- **C79, subclasses.**  An object that inherits from a base class is accepted by the
composites of that class, and by ImplicitTendencyComponentComposite also if it is a
TendencyComponent. -/
theorem composite_accepts_subclass (k : Kind) (o : Obj) (hb : o.bases ≠ []) :
    acceptedBy k o = true ↔ k ∈ o.bases ∨ (k = .implicit ∧ Kind.tendency ∈ o.bases) := by
  cases k <;> simp [acceptedBy, inheriting_kind o hb, or_comm]

/-- **C79, construction.**  A composite with a component of another kind raises
TypeError, whatever properties the components declare. -/
theorem composite_type_error (R : Registry) (o : SetOrder) (g : Tracers) (k : Kind) (cs : List (Class × Obj))
    (c : Class × Obj) (hc : c ∈ cs) (h : acceptedBy k c.2 = false) :
    compositeConstruct R o g k cs = .error .typeError := by
  unfold compositeConstruct
  rw [if_neg]
  intro hall
  have := List.all_eq_true.1 hall c hc
  rw [h] at this
  cases this

/-- A component with a Stepper's interface is refused by every composite, one with a
tendency component's interface and a required timestep only by some. -/
example :
    let st : Obj := { attrs := ["input_properties", "output_properties", "diagnostic_properties", "array_call",
      "tendencies_in_diagnostics", "name"], bases := [], call := some ⟨["self", "state", "timestep"], []⟩ }
    let im : Obj := { attrs := ["input_properties", "tendency_properties", "diagnostic_properties", "array_call",
      "tendencies_in_diagnostics", "name"], bases := [], call := some ⟨["self", "state", "timestep"], []⟩ }
    acceptedBy .implicit st = false ∧ acceptedBy .tendency st = false ∧ acceptedBy .diagnostic st = false ∧
    acceptedBy .implicit im = true ∧ acceptedBy .tendency im = false ∧
    Exc.failsWith (compositeConstruct Demo.reg Demo.order {} .tendency
      ((Demo.sumComps.drop 1).map (fun c => (c.cls, c.obj)) ++ [(Demo.cls, im)])) .typeError = true := by
  decide +kernel

/-- Non-vacuity of C28 for ImplicitTendencyComponentComposite: the component that takes a
timestep gets 2 s, and returns it as a tendency added to that of the other component. -/
example :
    let ob : Obj := ⟨["input_properties", "tendency_properties", "diagnostic_properties", "array_call",
        "tendencies_in_diagnostics", "name"], [], some ⟨["self", "state", "timestep"], []⟩⟩
    let im : Comp Nat := ⟨Demo.cls, ob, fun s _ => (s, .error .typeError), fun s _ dt => (s + 1, .ok ([("T",
        ⟨Demo.prof.dims, Demo.prof.arr.map fun _ => seconds dt, [("units", "K s^-1")]⟩)], []))⟩
    let cs := [im] ++ Demo.sumComps.take 1
    (∀ c ∈ cs, acceptedBy .implicit c.obj = true) ∧
    (callImplicitComposite Demo.reg cs 0 Demo.state 2000000).1 = 2 ∧
    Exc.test (callImplicitComposite Demo.reg cs 0 Demo.state 2000000).2 (fun r =>
      Exc.test (r.1.get "T") fun t => decide (t.arr.get [2] = 2 + 3)) = true := by
  decide +kernel

/-! ## C80 -/

/-- The monitors `ms` store `state` one after another, each starting from the world the
one before left, and all succeed. -/
inductive StoredBy {σ : Type} (state : State) : List (σ → State → σ × Except Err Unit) → σ → σ → Prop
  | nil (s : σ) : StoredBy state [] s s
  | cons {m : σ → State → σ × Except Err Unit} {ms : List (σ → State → σ × Except Err Unit)} {s s1 s2 : σ} :
      m s state = (s1, .ok ()) → StoredBy state ms s1 s2 → StoredBy state (m :: ms) s s2

/-- **C80.**  `store` of a MonitorComposite succeeds exactly if every monitor, in order,
stores the state; if it raises, the monitors before some one have stored the state, that
one raised the error, and those after it were not called. -/
theorem monitor_composite_stores {σ : Type} (ms : List (σ → State → σ × Except Err Unit)) (s s' : σ)
    (state : State) :
    (storeAll ms s state = (s', .ok ()) ↔ StoredBy state ms s s') ∧
    ∀ e, storeAll ms s state = (s', .error e) ↔
      ∃ before m after s1, ms = before ++ m :: after ∧ StoredBy state before s s1 ∧ m s1 state = (s', .error e) := by
  induction ms generalizing s with
  | nil =>
    refine ⟨⟨?_, ?_⟩, fun e => ⟨fun h => (by cases h), ?_⟩⟩
    · intro h
      cases h
      exact .nil _
    · intro h
      cases h
      rfl
    · rintro ⟨before, m, after, s1, h, _⟩
      cases before <;> cases h
  | cons m ms ih =>
    unfold storeAll
    rcases hm : m s state with ⟨s1, r⟩
    cases r with
    | error e0 =>
      refine ⟨⟨fun h => (by cases h), ?_⟩, fun e => ⟨?_, ?_⟩⟩
      · intro h
        cases h with
        | cons h1 _ => rw [hm] at h1; cases h1
      · intro h
        cases h
        exact ⟨[], m, ms, s, rfl, .nil s, hm⟩
      · rintro ⟨before, m', after, s2, h, hst, hm'⟩
        cases before with
        | nil =>
          cases h
          cases hst
          rw [hm] at hm'
          exact hm'
        | cons b before =>
          cases h
          cases hst with
          | cons h1 _ => rw [hm] at h1; cases h1
    | ok u =>
      obtain ⟨i1, i2⟩ := ih s1
      refine ⟨?_, fun e => ?_⟩
      · dsimp only
        rw [i1]
        constructor
        · exact .cons hm
        · intro h
          cases h with
          | cons h1 h2 => rw [hm] at h1; cases h1; exact h2
      · dsimp only
        rw [i2]
        constructor
        · rintro ⟨before, m', after, s2, h, hst, hm'⟩
          exact ⟨m :: before, m', after, s2, by rw [h]; rfl, .cons hm hst, hm'⟩
        · rintro ⟨before, m', after, s2, h, hst, hm'⟩
          cases before with
          | nil =>
            cases h
            cases hst
            rw [hm] at hm'
            cases hm'
          | cons b before =>
            cases h
            cases hst with
            | cons h1 h2 =>
              rw [hm] at h1
              cases h1
              exact ⟨before, m', after, s2, rfl, h2, hm'⟩

example : Exc.failsWith (storeAll [fun (s : Nat) _ => (s + 1, .ok ()), fun s _ => (s + 2, .error .valueError),
    fun s _ => (s + 4, .ok ())] 0 Demo.state).2 .valueError = true ∧
    (storeAll [fun (s : Nat) _ => (s + 1, .ok ()), fun s _ => (s + 2, .error .valueError),
    fun s _ => (s + 4, .ok ())] 0 Demo.state).1 = 3 := by decide +kernel

end Verif

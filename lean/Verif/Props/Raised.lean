import Verif.Spec.Raised
import Verif.Props.SteppersOver
import Verif.Props.Confined
/-!
# C124: which exceptions time steppers raise
-/

namespace Verif

section
variable {X : Err → Prop} {α β : Type}

theorem RaisesOnly.ok (a : α) : RaisesOnly X (.ok a : Except Err α) := fun _ h => by cases h

theorem RaisesOnly.error {e : Err} (h : X e) : RaisesOnly X (.error e : Except Err α) := fun e' h' => by
  injection h' with h'; exact h' ▸ h

theorem RaisesOnly.bind {r : Except Err α} {f : α → Except Err β} (h : RaisesOnly X r) (hf : ∀ a, RaisesOnly X (f a)) :
    RaisesOnly X (r >>= f) := by
  intro e he
  cases r with
  | error e' => injection he with he; exact he ▸ h e' rfl
  | ok a => exact hf a e he

theorem RaisesOnly.mono {Y : Err → Prop} (hXY : ∀ e, X e → Y e) {r : Except Err α} (h : RaisesOnly X r) : RaisesOnly Y r :=
  fun e he => hXY e (h e he)

end

section
variable {V : Type} {A : Arith V} {X : Err → Prop}

theorem raises_get (hX : ∀ e, StepperErr e → X e) {α : Type} (d : Dict α) (k : String) : RaisesOnly X (d.get k) := by
  unfold Dict.get
  cases d.get? k with
  | none => exact .error (hX _ (.inl rfl))
  | some v => exact .ok v

theorem raises_da (hX : ∀ e, StepperErr e → X e) (y : EState V) (k : String) : RaisesOnly X (EState.da y k) := by
  unfold EState.da
  cases Dict.get? y k with
  | none => exact .error (hX _ (.inl rfl))
  | some v =>
    cases v with
    | da a => exact .ok a
    | time t => exact .error (hX _ (.inr (.inr (.inl rfl))))

variable (hA : ArithRaises X A) (hX : ∀ e, StepperErr e → X e)
include hA hX

theorem raises_addStates (y z : EState V) : RaisesOnly X (addStatesO A y z) := by
  unfold addStatesO
  generalize timeEntryO y = out
  induction y generalizing out with
  | nil => exact .ok _
  | cons e y ih =>
    obtain ⟨k, v⟩ := e
    unfold addStatesLoopO
    split
    · exact ih _
    · cases v with
      | time t => exact .error (hX _ (.inr (.inr (.inl rfl))))
      | da a => exact (raises_da hX _ _).bind fun b => (hA.add _ _).bind fun r => ih _

omit hA in
theorem raises_scaleState (c : Rat) (y : EState V) : RaisesOnly X (scaleStateO A c y) := by
  unfold scaleStateO
  generalize timeEntryO y = out
  induction y generalizing out with
  | nil => exact .ok _
  | cons e y ih =>
    obtain ⟨k, v⟩ := e
    unfold scaleStateLoopO
    split
    · exact ih _
    · cases v with
      | time t => exact .error (hX _ (.inr (.inr (.inl rfl))))
      | da a => exact ih _

theorem raises_convertTendencies (y : EState V) (t : Dict V) : RaisesOnly X (convertTendenciesO A y t) := by
  induction t with
  | nil => exact .ok _
  | cons e t ih =>
    obtain ⟨q, v⟩ := e
    refine RaisesOnly.bind ?_ fun v' => ih.bind fun r => .ok _
    unfold convertTendencyO
    split
    · split
      · exact .ok _
      · exact (raises_da hX _ _).bind fun s => (raises_get hX _ _).bind fun u => hA.toUnits _ _
    · exact .ok _

omit hA hX in
theorem raises_stepKeys {f : String → Except Err V} (hf : ∀ k, RaisesOnly X (f k)) (ks : List String) :
    RaisesOnly X (stepKeysO f ks) := by
  induction ks with
  | nil => exact .ok _
  | cons k ks ih => exact (hf k).bind fun v => ih.bind fun r => .ok _

theorem raises_euler (y : EState V) (t : Dict V) (dt : Int) : RaisesOnly X (stepEulerO A y t dt) :=
  raises_stepKeys (fun _ => (raises_da hX _ _).bind fun _ => (raises_get hX _ _).bind fun _ => hA.add _ _) _

theorem raises_performStep (order : Nat) (hist : List (Dict V)) (y : EState V) (dt : Int) :
    RaisesOnly X (performStepO A order hist y dt) := by
  have hr : RaisesOnly X (.error .runtimeError : Except Err (EState V)) := .error (hX _ (.inr (.inr (.inr rfl))))
  unfold performStepO
  split
  · split
    · exact raises_euler hA hX _ _ _
    · exact raises_stepKeys (fun _ => (raises_da hX _ _).bind fun _ => (raises_get hX _ _).bind fun _ =>
        (raises_get hX _ _).bind fun _ => (hA.sub _ _).bind fun _ => hA.add _ _) _
    · exact raises_stepKeys (fun _ => (raises_da hX _ _).bind fun _ => (raises_get hX _ _).bind fun _ =>
        (raises_get hX _ _).bind fun _ => (hA.sub _ _).bind fun _ => (raises_get hX _ _).bind fun _ =>
        (hA.add _ _).bind fun _ => hA.add _ _) _
    · exact raises_stepKeys (fun _ => (raises_da hX _ _).bind fun _ => (raises_get hX _ _).bind fun _ =>
        (raises_get hX _ _).bind fun _ => (hA.sub _ _).bind fun _ => (raises_get hX _ _).bind fun _ =>
        (hA.add _ _).bind fun _ => (raises_get hX _ _).bind fun _ => (hA.sub _ _).bind fun _ => hA.add _ _) _
    · exact hr
  · exact hr

/-- **What AdamsBashforth raises** was raised by the components or by the arithmetic of arrays, or is one of the
exceptions listed in `StepperErr`. -/
theorem ab_raises {σ : Type} {p : ProgOver σ V} (hp : ProgRaises X p) (ab : ABOver V) (s : σ) (y : EState V) (dt : Int) :
    RaisesOnly X (ABOver.call A p ab s y dt).2.2 := by
  unfold ABOver.call
  split
  · dsimp only
    cases h : (p s y dt).2 with
    | error e => exact .error (hp s y dt e h)
    | ok r =>
      dsimp only
      cases h : convertTendenciesO A y r.1 with
      | error e => exact .error (raises_convertTendencies hA hX _ _ e h)
      | ok t =>
        dsimp only
        cases h : performStepO A ab.order (ab.hist ++ [t]) y dt with
        | error e => exact .error (raises_performStep hA hX _ _ _ _ e h)
        | ok n => exact .ok _
  · exact .error (hX _ (.inr (.inl rfl)))

theorem raises_stepLeapfrog (strength alpha : Rat) (old : EState V) (t : Dict V) (dt : Int) (ks : List String)
    (y new : EState V) : RaisesOnly X (stepLeapfrogO A strength alpha old t dt ks y new).2 := by
  induction ks generalizing y new with
  | nil => exact .ok _
  | cons k ks ih =>
    unfold stepLeapfrogO
    have h1 : RaisesOnly (fun e => X e) (EState.da old k >>= fun o => EState.da y k >>= fun x => t.get k >>= fun v =>
        leapfrogEntryO A strength alpha o x v dt) := by
      refine (raises_da hX _ _).bind fun o => (raises_da hX _ _).bind fun x => (raises_get hX _ _).bind fun v => ?_
      unfold leapfrogEntryO
      exact (hA.add _ _).bind fun _ => (hA.sub _ _).bind fun _ => (hA.add _ _).bind fun _ => (hA.iadd _ _).bind fun _ => .ok _
    have h2 : ∀ r, (EState.da old k >>= fun o => EState.da y k >>= fun x => t.get k >>= fun v =>
        leapfrogEntryO A strength alpha o x v dt) = .ok r → RaisesOnly X r.2 := by
      intro r hr
      obtain ⟨o, -, hr⟩ := Exc.bind_ok_iff.1 hr
      obtain ⟨x, -, hr⟩ := Exc.bind_ok_iff.1 hr
      obtain ⟨v, -, hr⟩ := Exc.bind_ok_iff.1 hr
      unfold leapfrogEntryO at hr
      obtain ⟨n, -, hr⟩ := Exc.bind_ok_iff.1 hr
      obtain ⟨d, -, hr⟩ := Exc.bind_ok_iff.1 hr
      obtain ⟨d', -, hr⟩ := Exc.bind_ok_iff.1 hr
      obtain ⟨x', -, hr⟩ := Exc.bind_ok_iff.1 hr
      injection hr with hr
      subst hr
      dsimp only
      split
      · exact hA.iadd _ _
      · exact .ok _
    cases h : (EState.da old k >>= fun o => EState.da y k >>= fun x => t.get k >>= fun v =>
        leapfrogEntryO A strength alpha o x v dt) with
    | error e => exact .error (h1 e h)
    | ok r =>
      dsimp only
      cases h' : r.2 with
      | error e => exact .error (h2 r h e h')
      | ok n => exact ih _ _

/-- **What Leapfrog raises** was raised by the components or by the arithmetic of arrays, or is one of the exceptions
listed in `StepperErr`. -/
theorem lf_raises {σ : Type} {p : ProgOver σ V} (hp : ProgRaises X p) (lf : LFOver V) (s : σ) (y : EState V) (dt : Int) :
    RaisesOnly X (LFOver.call A p lf s y dt).2.2.2 := by
  unfold LFOver.call
  split
  · dsimp only
    cases h : (p s y dt).2 with
    | error e => exact .error (hp s y dt e h)
    | ok r =>
      dsimp only
      cases h : convertTendenciesO A y r.1 with
      | error e => exact .error (raises_convertTendencies hA hX _ _ e h)
      | ok t =>
        dsimp only
        cases lf.old with
        | none =>
          dsimp only
          cases h : stepEulerO A y t dt with
          | error e => exact .error (raises_euler hA hX _ _ _ e h)
          | ok n => exact .ok _
        | some old =>
          dsimp only
          cases h : (stepLeapfrogO A lf.strength lf.alpha old t dt t.keys y []).2 with
          | error e => exact .error (raises_stepLeapfrog hA hX _ _ _ _ _ _ _ _ e h)
          | ok n => exact .ok _
  · exact .error (hX _ (.inr (.inl rfl)))

theorem raises_eulerCall {σ : Type} {p : ProgOver σ V} (hp : ProgRaises X p) (ab : ABOver V) (s : σ) (y : EState V)
    (dt : Int) : RaisesOnly X (eulerCallO A p ab s y dt).2.2 :=
  (ab_raises hA hX hp ab s y dt).bind fun _ => .ok _

/-- **What SSPRungeKutta raises** was raised by the components or by the arithmetic of arrays, or is one of the
exceptions listed in `StepperErr`. -/
theorem ssprk_raises {σ : Type} {p : ProgOver σ V} (hp : ProgRaises X p) (three : Bool) (ab : ABOver V) (s : σ)
    (y : EState V) (dt : Int) : RaisesOnly X (ssprkCallO A p three ab s y dt).2.2 := by
  have he := fun ab s y => raises_eulerCall hA hX hp ab s y dt
  unfold ssprkCallO
  split
  · unfold ssprk3O
    have h1 := he ab s y
    rcases x1 : eulerCallO A p ab s y dt with ⟨ab1, s1, r1⟩
    rw [x1] at h1
    cases r1 with
    | error e => exact .error (h1 e rfl)
    | ok r1 =>
      obtain ⟨d1, y1⟩ := r1
      dsimp only
      have h2 := he ab1 s1 y1
      rcases x2 : eulerCallO A p ab1 s1 y1 dt with ⟨ab2, s2, r2⟩
      rw [x2] at h2
      cases r2 with
      | error e => exact .error (h2 e rfl)
      | ok r2 =>
        obtain ⟨d2, y2⟩ := r2
        dsimp only
        have h3 : RaisesOnly X (scaleStateO A (3 / 4) y >>= fun x => scaleStateO A (1 / 4) y2 >>= fun y => addStatesO A x y) :=
          (raises_scaleState hX _ _).bind fun _ => (raises_scaleState hX _ _).bind fun _ => raises_addStates hA hX _ _
        cases x3 : (scaleStateO A (3 / 4) y >>= fun x => scaleStateO A (1 / 4) y2 >>= fun y => addStatesO A x y) with
        | error e => exact .error (h3 e x3)
        | ok y3 =>
          dsimp only
          have h4 := he ab2 s2 y3
          rcases x4 : eulerCallO A p ab2 s2 y3 dt with ⟨ab4, s4, r4⟩
          rw [x4] at h4
          cases r4 with
          | error e => exact .error (h4 e rfl)
          | ok r4 =>
            exact (raises_scaleState hX _ _).bind fun _ => (raises_scaleState hX _ _).bind fun _ =>
              (raises_addStates hA hX _ _).bind fun _ => .ok _
  · unfold ssprk2O
    have h1 := he ab s y
    rcases x1 : eulerCallO A p ab s y dt with ⟨ab1, s1, r1⟩
    rw [x1] at h1
    cases r1 with
    | error e => exact .error (h1 e rfl)
    | ok r1 =>
      obtain ⟨d1, y1⟩ := r1
      dsimp only
      have h2 := he ab1 s1 y1
      rcases x2 : eulerCallO A p ab1 s1 y1 dt with ⟨ab2, s2, r2⟩
      rw [x2] at h2
      cases r2 with
      | error e => exact .error (h2 e rfl)
      | ok r2 =>
        exact (raises_addStates hA hX _ _).bind fun _ => (raises_scaleState hX _ _).bind fun _ => .ok _

/-- **`TendencyStepper.__call__` raises** what its `_call` raises, or what listing the tendencies in the diagnostics
raises. -/
theorem stepper_raises {τ σ : Type} (inProps outProps : PropDict) (inst : String) (tid : Bool)
    {call : τ → σ → EState V → Int → τ × σ × EState V × Except Err (Dict V × EState V)}
    (hc : ∀ x s y dt, RaisesOnly X (call x s y dt).2.2.2) (x : τ) (s : σ) (y : EState V) (dt : Int) :
    RaisesOnly X (tsCallO A inProps outProps inst tid call x s y dt).2.2.2 := by
  refine (hc x s y dt).bind fun o => RaisesOnly.bind ?_ fun _ => .ok _
  split
  · generalize outProps.keys = ks
    generalize o.1 = d
    generalize (call x s y dt).2.2.1 = y'
    generalize copyUntouchedO y' o.2 = n
    induction ks generalizing d with
    | nil => exact .ok _
    | cons k ks ih =>
      unfold insertNetO
      split
      · exact .error (hX _ (.inr (.inr (.inr rfl))))
      · refine RaisesOnly.bind ?_ fun d' => ih _
        unfold netTendencyO
        refine (raises_get hX _ _).bind fun q => RaisesOnly.bind ?_ fun u => (raises_da hX _ _).bind fun _ =>
          (hA.toUnits _ _).bind fun _ => (raises_da hX _ _).bind fun _ => (hA.toUnits _ _).bind fun _ =>
          (hA.sub _ _).bind fun _ => .ok _
        split
        · exact .ok _
        · exact .error (hX _ (.inl rfl))
  · exact .ok _

end

/-! ## Composites, DataArrays -/

/-- **What a composite raises** was raised by a component or by the arithmetic of arrays, or is the InvalidStateError
for tendencies of the same quantity without units. -/
theorem composite_raises {V σ : Type} {A : Arith V} {X : Err → Prop} (hA : ArithRaises X A) (hi : X .invalidState)
    {cs : List (ProgOver σ V)} (hc : ∀ p ∈ cs, ProgRaises X p) : ProgRaises X (compositeO A cs) := by
  have hadd : ∀ (d d1 : Dict V), RaisesOnly X (addIntoO A d d1) := by
    intro d
    induction d with
    | nil => exact fun d1 => .ok _
    | cons e d ih =>
      intro d1
      obtain ⟨k, v⟩ := e
      unfold addIntoO
      cases d1.get? k with
      | none => exact ih _
      | some w =>
        dsimp only
        split
        · exact (hA.toUnits _ _).bind fun _ => (hA.add _ _).bind fun _ => ih _
        · exact .error hi
  intro s y dt
  unfold compositeO
  have hloop : ∀ (cs : List (ProgOver σ V)), (∀ p ∈ cs, ProgRaises X p) → ∀ s t d,
      RaisesOnly X (compositeLoopO A (cs.map fun p s => p s y dt) s t d).2 := by
    intro cs
    induction cs with
    | nil => exact fun _ s t d => .ok _
    | cons p cs ih =>
      intro hc s t d
      rw [List.map_cons]
      unfold compositeLoopO
      cases h : (p s y dt).2 with
      | error e => exact .error (hc p (List.mem_cons_self ..) s y dt e h)
      | ok r =>
        dsimp only
        cases h : addIntoO A r.1 t with
        | error e => exact .error (hadd _ _ e h)
        | ok t' => exact ih (fun q hq => hc q (List.mem_cons_of_mem _ hq)) _ _ _
  exact hloop cs hc s [] []

theorem raises_unit {X : Err → Prop} (hu : X .undefinedUnit) (R : Registry) (u : String) : RaisesOnly X (R.unit u) := by
  unfold Registry.unit
  split
  · exact .ok _
  · exact .error hu

/-- **The arithmetic of DataArrays** raises KeyError (no units), ValueError (lengths, dimensions of units) and pint's
UndefinedUnitError only. -/
theorem elem_raises {F : Type} {X : Err → Prop} (hk : X .keyError) (hv : X .valueError) (hu : X .undefinedUnit)
    (R : Registry) (E : Elem F) : ArithRaises X (elemArith R E) := by
  have hb : ∀ (f : F → F → F) a b, RaisesOnly X (ElemArray.binop f a b) := by
    intro f a b
    unfold ElemArray.binop
    dsimp only
    split
    · exact .ok _
    · exact .error hv
  refine ⟨hb _, hb _, fun a b => ?_, fun a u => ?_⟩
  · show RaisesOnly X (if ∀ d ∈ b.dims, d ∈ a.dims then ElemArray.binop E.add a b else .error .valueError)
    split
    · exact hb _ _ _
    · exact .error hv
  · show RaisesOnly X (ElemArray.toUnits R E a u)
    unfold ElemArray.toUnits
    cases h : a.attrs.get? "units" with
    | none => exact .error hk
    | some own =>
      have hd : RaisesOnly (fun e => X e ∨ e = .dimensionality) (ElemArray.dataArrayToUnits R E a u) := by
        unfold ElemArray.dataArrayToUnits
        rw [h]
        dsimp only
        refine (raises_unit (.inl hu) R _).bind fun _ => (raises_unit (.inl hu) R _).bind fun _ => ?_
        split
        · exact .ok _
        · split
          · exact .ok _
          · exact .error (.inr rfl)
      intro e he
      dsimp only at he
      split at he
      · injection he with he; exact he ▸ hv
      · rename_i hne
        rcases hd e he with h | h
        · exact h
        · subst h; exact (hne he).elim

/-- The same for DataArrays with exact elements. -/
theorem dataArray_raises {X : Err → Prop} (hk : X .keyError) (hv : X .valueError) (hu : X .undefinedUnit)
    (R : Registry) : ArithRaises X (dataArrayArith R) := by
  have hb : ∀ f a b, RaisesOnly X (DataArray.binop f a b) := by
    intro f a b
    unfold DataArray.binop
    dsimp only
    split
    · exact .ok _
    · exact .error hv
  have ha : ∀ a b, RaisesOnly X (DataArray.add a b) := fun a b => (hb _ a b).bind fun _ => .ok _
  refine ⟨ha, fun a b => (hb _ a b).bind fun _ => .ok _, fun a b => ?_, fun a u => ?_⟩
  · show RaisesOnly X (if ∀ d ∈ b.dims, d ∈ a.dims then a.add b else .error .valueError)
    split
    · exact ha _ _
    · exact .error hv
  · show RaisesOnly X (DataArray.toUnits R a u)
    unfold DataArray.toUnits
    cases h : a.attrs.get? "units" with
    | none => exact .error hk
    | some own =>
      have hd : RaisesOnly (fun e => X e ∨ e = .dimensionality) (DataArray.dataArrayToUnits R a u) := by
        unfold DataArray.dataArrayToUnits
        rw [h]
        dsimp only
        refine (raises_unit (.inl hu) R _).bind fun _ => (raises_unit (.inl hu) R _).bind fun _ => ?_
        split
        · exact .ok _
        · split
          · exact .ok _
          · exact .error (.inr rfl)
      intro e he
      dsimp only at he
      split at he
      · injection he with he; exact he ▸ hv
      · rename_i hne
        rcases hd e he with h | h
        · exact h
        · subst h; exact (hne he).elim

section
variable {F : Type} {σ : Type} {P : Err → Prop} (R : Registry) (E : Elem F) {cs : List (ProgOver σ (ElemArray F))}
  (hc : ∀ p ∈ cs, ProgRaises P p) (inProps outProps : PropDict) (inst : String) (tid : Bool)
include hc

/-- **Every exception of a time stepper** was raised by one of its components, is InvalidStateError (the composite adds
tendencies without units) or UndefinedUnitError (pint), or is one of KeyError, ValueError, AttributeError, RuntimeError:
in any call, whatever the stepper remembers, for elements of any type. -/
theorem time_steppers_raise (s : σ) (y : EState (ElemArray F)) (dt : Int) :
    (∀ ab, RaisesOnly (CallErr P) (tsCallO (elemArith R E) inProps outProps inst tid
      (abCallO (elemArith R E) (compositeO (elemArith R E) cs)) ab s y dt).2.2.2) ∧
    (∀ three ab, RaisesOnly (CallErr P) (tsCallO (elemArith R E) inProps outProps inst tid
      (sspCallO (elemArith R E) (compositeO (elemArith R E) cs) three) ab s y dt).2.2.2) ∧
    (∀ lf, RaisesOnly (CallErr P) (tsCallO (elemArith R E) inProps outProps inst tid
      (LFOver.call (elemArith R E) (compositeO (elemArith R E) cs)) lf s y dt).2.2.2) := by
  have hX : ∀ e, StepperErr e → CallErr P e := fun e h => .inr (.inl h)
  have hA : ArithRaises (CallErr P) (elemArith R E) :=
    elem_raises (hX _ (.inl rfl)) (hX _ (.inr (.inl rfl))) (.inr (.inr (.inr rfl))) R E
  have hp : ProgRaises (CallErr P) (compositeO (elemArith R E) cs) :=
    composite_raises hA (.inr (.inr (.inl rfl))) fun p hp s y dt => (hc p hp s y dt).mono fun e h => .inl h
  exact ⟨fun ab => stepper_raises hA hX _ _ _ _ (fun x s y dt => ab_raises hA hX hp x s y dt) _ _ _ _,
    fun three ab => stepper_raises hA hX _ _ _ _ (fun x s y dt => ssprk_raises hA hX hp three x s y dt) _ _ _ _,
    fun lf => stepper_raises hA hX _ _ _ _ (fun x s y dt => lf_raises hA hX hp x s y dt) _ _ _ _⟩

/-- **Leapfrog does not raise the SharedKeyError it documents** (timesteppers.py:240-242): it raises none unless a
component does, whatever is in the state and in the diagnostics. -/
theorem leapfrog_no_sharedKey (hP : ¬ P .sharedKey) (lf : LFOver (ElemArray F)) (s : σ) (y : EState (ElemArray F)) (dt : Int) :
    (tsCallO (elemArith R E) inProps outProps inst tid
      (LFOver.call (elemArith R E) (compositeO (elemArith R E) cs)) lf s y dt).2.2.2 ≠ .error .sharedKey := by
  intro h
  rcases (time_steppers_raise R E hc inProps outProps inst tid s y dt).2.2 lf _ h with h | h | h | h
  · exact hP h
  · rcases h with h | h | h | h <;> cases h
  · cases h
  · cases h

end

/-! ## Non-vacuity -/

namespace Demo

/-- Cools the temperature `T`, and returns it as a diagnostic. -/
def sharesKey : ProgOver Unit (ElemArray (Option Rat)) := fun s y dt =>
  ((coolsAll s y dt).1, (coolsAll s y dt).2 >>= fun r => EState.da y "T" >>= fun a => .ok (r.1, [("T", a)]))

theorem sharesKey_raises : ProgRaises (fun e => e = .keyError ∨ e = .attributeError) sharesKey := by
  have h : ∀ y : EState (ElemArray (Option Rat)), RaisesOnly (fun e => e = .keyError ∨ e = .attributeError) (EState.da y "T") := by
    intro y
    unfold EState.da
    split
    · exact .ok _
    · exact .error (.inr rfl)
    · exact .error (.inl rfl)
  intro s y dt
  exact ((h y).bind fun _ => .ok _).bind fun _ => (h y).bind fun _ => .ok _

/-- A diagnostic that is in the state at the start of the timestep: Leapfrog returns it. -/
example : Exc.test (tsCallO (elemArith reg (withNaN exactElem)) [] [] "" false
    (LFOver.call (elemArith reg (withNaN exactElem)) (compositeO (elemArith reg (withNaN exactElem)) [sharesKey]))
    {} () (twoCells none) 1000000).2.2.2
    (fun r => decide ("T" ∈ r.1.keys) && decide ("T" ∈ Dict.keys (twoCells none))) = true := by decide +kernel

/-- No call of this Leapfrog raises SharedKeyError. -/
example (lf : LFOver (ElemArray (Option Rat))) (y : EState (ElemArray (Option Rat))) (dt : Int) :
    (tsCallO (elemArith reg (withNaN exactElem)) [] [] "" true
      (LFOver.call (elemArith reg (withNaN exactElem)) (compositeO (elemArith reg (withNaN exactElem)) [sharesKey])) lf () y dt).2.2.2
      ≠ .error .sharedKey :=
  leapfrog_no_sharedKey reg _ (P := fun e => e = .keyError ∨ e = .attributeError)
    (fun p hp => List.mem_singleton.1 hp ▸ sharesKey_raises) _ _ _ _ (by rintro (h | h) <;> cases h) lf () y dt

/-- Exceptions of the list are raised: KeyError on a state without the quantity, ValueError for another timestep. -/
example : Exc.failsWith (tsCallO (elemArith reg (withNaN exactElem)) [] [] "" false
      (LFOver.call (elemArith reg (withNaN exactElem)) (compositeO (elemArith reg (withNaN exactElem)) [sharesKey]))
      {} () [] 1000000).2.2.2 .keyError = true ∧
    Exc.failsWith (tsCallO (elemArith reg (withNaN exactElem)) [] [] "" false
      (LFOver.call (elemArith reg (withNaN exactElem)) (compositeO (elemArith reg (withNaN exactElem)) [sharesKey]))
      { timestep := some 2000000 } () (twoCells none) 1000000).2.2.2 .valueError = true := by decide +kernel

end Demo
end Verif

import Verif.Props.AlikeWrappers
import Verif.Props.Confined
import Verif.Props.Shifted
import Verif.Props.Passive
import Verif.Props.ScalingRepeat
/-!
# Wrapped components in C122, C123 and C125
-/

namespace Verif

section
variable {F : Type} {B : (String → Nat) → Prop} {σ : Type} {Z : σ → σ → Prop} (R : Registry) (E : Elem F)

/-- **A component in a ScalingWrapper carries nothing out of a region** if the component does not. -/
theorem scaling_confined {p : ProgOver σ (ElemArray F)} (hp : KeepsRegion B Z p) (w : Scaling) (inKeys : List String) :
    KeepsRegion B Z (scalingO (elemArith R E) w inKeys p) :=
  scaling_pair (elem_alike R E B) hp w inKeys

/-- **A Stepper in a TimeDifferencingWrapper carries nothing out of a region** if the Stepper does not. -/
theorem differencing_confined {f : StepOver σ (ElemArray F)} (hf : StepperPair Eq Z (fun _ => AgreeOff B) f f) (outProps : PropDict) :
    KeepsRegion B Z (differencingO (elemArith R E) outProps f) :=
  differencing_pair (elem_alike R E B) outProps hf

end

section
variable {F : Type} {Q : String → Prop} {σ : Type} {Z : σ → σ → Prop} (R : Registry) (E : Elem F)
  (hQ : ∀ k inst, Q k → Q (tendencyName k inst))
include hQ

/-- **Quantities are passive for a component in a ScalingWrapper** if they are for the component. -/
theorem scaling_passive {p : ProgOver σ (ElemArray F)} (hp : PassiveFor Q Z p) (w : Scaling) (inKeys : List String) :
    PassiveFor Q Z (scalingO (elemArith R E) w inKeys p) :=
  scaling_pair (passive_alike R E hQ) hp w inKeys

/-- **Quantities are passive for a Stepper in a TimeDifferencingWrapper** if they are for the Stepper. -/
theorem differencing_passive {f : StepOver σ (ElemArray F)} (hf : StepperPair Eq Z (fun k => AgreeOff fun _ => Q k) f f)
    (outProps : PropDict) : PassiveFor Q Z (differencingO (elemArith R E) outProps f) :=
  differencing_pair (passive_alike R E hQ) outProps hf

end

section
variable {V σ : Type} {Z : σ → σ → Prop} {δ : Int} (A : Arith V)

/-- **The date does not matter to a component in a ScalingWrapper** if it does not matter to the component. -/
theorem scaling_dateBlind {p : ProgOver σ V} (hp : DateBlind δ Z p) (w : Scaling) (inKeys : List String) :
    DateBlind δ Z (scalingO A w inKeys p) :=
  dateBlind_iff.2 (scaling_pair (alike_self A) (dateBlind_iff.1 hp) w inKeys)

/-- Steppers to which the date does not matter. -/
def StepBlind (δ : Int) (Z : σ → σ → Prop) (f : StepOver σ V) : Prop :=
  ∀ s s' y dt, Z s s' → Z (f s y dt).1 (f s' (shiftState δ y) dt).1 ∧
    (f s' (shiftState δ y) dt).2 = match (f s y dt).2 with
      | .ok r => .ok (r.1, shiftState δ r.2)
      | .error e => .error e

/-- **The date does not matter to a Stepper in a TimeDifferencingWrapper** if it does not matter to the Stepper. -/
theorem differencing_dateBlind {f : StepOver σ V} (hf : StepBlind δ Z f) (outProps : PropDict) :
    DateBlind δ Z (differencingO A outProps f) := by
  refine dateBlind_iff.2 (differencing_pair (alike_self A) outProps ?_)
  intro s s' y y' dt hz hy
  have hy := (shiftRel_iff δ y y').1 hy
  subst hy
  obtain ⟨h1, h2⟩ := hf s s' y dt hz
  refine ⟨h1, ?_⟩
  rw [h2]
  cases (f s y dt).2 with
  | error e => rfl
  | ok r => exact ⟨(dictRel_eq_iff _ _).2 rfl, (shiftRel_iff δ r.2 _).2 rfl⟩

end

/-! ## TimeDifferencingWrapper over DataArrays is that of `Verif/Model/Wrappers.lean` -/

/-- Every state over DataArrays is one of the other files. -/
def toVal : Entry DataArray → Val
  | .da a => .da a
  | .time t => .time t

/-- A state as one of the other files. -/
def toState (y : EState DataArray) : State := Dict.mapVal toVal y

theorem toState_da (y : EState DataArray) (k : String) : State.da (toState y) k = EState.da y k := by
  unfold State.da EState.da toState
  rw [Dict.get?_mapVal]
  cases Dict.get? y k with
  | none => rfl
  | some v => cases v <;> rfl

theorem differenceLoopO_dataArray (R : Registry) (outProps : PropDict) (y : EState DataArray) (dt : Int) :
    ∀ (n : EState DataArray) (out : Dict DataArray),
    differenceLoopO (dataArrayArith R) outProps y dt n out = differenceLoop R outProps (toState y) dt (toState n) out := by
  intro n
  induction n with
  | nil => exact fun out => rfl
  | cons e n ih =>
    intro out
    obtain ⟨k, v⟩ := e
    cases v with
    | time t =>
      show (if k ≠ "time" then _ else differenceLoopO _ outProps y dt n out) =
        (if k ≠ "time" then _ else differenceLoop R outProps (toState y) dt (toState n) out)
      rw [ih]
    | da a =>
      show (if k ∈ outProps.keys then differencedTendencyO _ outProps y dt k a >>= fun t =>
          differenceLoopO _ outProps y dt n (out.set k t) else differenceLoopO _ outProps y dt n out) =
        (if k ∈ outProps.keys then differencedTendency R outProps (toState y) dt k a >>= fun t =>
          differenceLoop R outProps (toState y) dt (toState n) (out.set k t)
          else differenceLoop R outProps (toState y) dt (toState n) out)
      have ht : differencedTendencyO (dataArrayArith R) outProps y dt k a = differencedTendency R outProps (toState y) dt k a := by
        unfold differencedTendencyO differencedTendency
        rw [toState_da]
        have hk : Dict.keys (toState y) = Dict.keys y := Dict.keys_mapVal _ _
        rw [hk]
        have hm : ∀ d : DataArray, d.arr.map (fun x => x / seconds dt * 1) = d.arr.map (· / seconds dt) := by
          intro d; simp only [mul_one]
        simp only [dataArrayArith, hm]
        rfl
      rw [ht, ih]
      simp only [ih]

/-- With the operations of DataArrays, `differencingO` is `TimeDifferencingWrapper.__call__` of the other files. -/
theorem differencingO_dataArray {σ : Type} (R : Registry) (outProps : PropDict) (f : StepOver σ DataArray)
    (g : σ → State → Int → σ × Except Err (Dict DataArray × State))
    (h : ∀ s y dt, g s (toState y) dt = ((f s y dt).1, (f s y dt).2 >>= fun r => .ok (r.1, toState r.2)))
    (s : σ) (y : EState DataArray) (dt : Int) :
    differencingO (dataArrayArith R) outProps f s y dt = differencingCall R outProps g s (toState y) dt := by
  unfold differencingO differencingCall
  rw [h]
  refine Prod.ext rfl ?_
  show _ = ((f s y dt).2 >>= _) >>= _
  cases (f s y dt).2 with
  | error e => rfl
  | ok r =>
    show (differenceLoopO (dataArrayArith R) outProps y dt r.2 [] >>= _) =
      (differenceLoop R outProps (toState y) dt (toState r.2) [] >>= _)
    rw [differenceLoopO_dataArray]

/-! ## ScalingWrapper and composites over DataArrays are those of the other files -/

theorem toState_set (y : EState DataArray) (k : String) (v : Entry DataArray) :
    toState (Dict.set y k v) = Dict.set (toState y) k (toVal v) := mapVal_set _ _ _ _

theorem scaleInputsO_dataArray (R : Registry) (f : Dict Rat) (y : EState DataArray) :
    ∀ (ks : List String) (out : EState DataArray), scaleInputsV f (toState y) ks (toState out) =
      (scaleInputsO (dataArrayArith R) f y ks out >>= fun s => .ok (toState s)) := by
  intro ks
  induction ks with
  | nil => exact fun out => rfl
  | cons k ks ih =>
    intro out
    unfold scaleInputsV scaleInputsO
    rw [toState, Dict.get?_mapVal]
    cases Dict.get? y k with
    | none => rfl
    | some v =>
      dsimp only [Option.map]
      cases f.get? k with
      | none => dsimp only; rw [← toState, ← toState_set]; exact ih _
      | some c =>
        cases v with
        | time t => rfl
        | da a => exact (congrArg _ (toState_set out k (.da (a.scaled c))).symm).trans (ih _)

/-- A dictionary of DataArrays as a state. -/
def daState (d : Dict DataArray) : State := Dict.mapVal Val.da d

theorem scaleOutputsO_dataArray (R : Registry) : ∀ (f : Dict Rat) (d : Dict DataArray),
    scaleOutputsV f (daState d) = (scaleOutputsO (dataArrayArith R) f d >>= fun r => .ok (daState r)) := by
  intro f
  induction f with
  | nil => exact fun d => rfl
  | cons e f ih =>
    intro d
    obtain ⟨k, c⟩ := e
    unfold scaleOutputsV scaleOutputsO
    rw [daState, Dict.get?_mapVal]
    cases d.get? k with
    | none => rfl
    | some a =>
      dsimp only [Option.map]
      exact (congrArg _ (mapVal_set Val.da d k (a.scaled c)).symm).trans (ih _)

/-- With the operations of DataArrays, `scalingO` is `ScalingWrapper.__call__` of the other files (on values: see
`scaling_call_refines`) around a TendencyComponent or ImplicitTendencyComponent. -/
theorem scalingO_dataArray {σ : Type} (R : Registry) (w : Scaling) (o : Obj) {kind : Kind} (hk : scalingKind o = some kind)
    (ht : kind = .tendency ∨ kind = .implicit) (inKeys : List String) (p : ProgOver σ DataArray)
    (F : State → Option Int → Except Err (State × State)) (s : σ) (dt : Int)
    (h : ∀ y, F (toState y) (if takesTimestep kind then some dt else none) =
      ((p s y dt).2 >>= fun r => .ok (daState r.1, daState r.2)))
    (y : EState DataArray) :
    w.callV o inKeys F (toState y) (some dt) =
      ((scalingO (dataArrayArith R) w inKeys p s y dt).2 >>= fun r => .ok (daState r.1, daState r.2)) := by
  have h0 : (match Dict.get? (toState y) "time" with | some v => [("time", v)] | none => []) = toState (timeEntryO y) := by
    unfold timeEntryO toState
    rw [Dict.get?_mapVal]
    cases Dict.get? y "time" <;> rfl
  have h1 : kind ≠ .stepper ∧ kind ≠ .diagnostic := by rcases ht with rfl | rfl <;> decide
  unfold Scaling.callV scalingO
  refine Eq.trans (congrArg (fun z => scaleInputsV w.input (toState y) inKeys z >>= _) h0) ?_
  rw [scaleInputsO_dataArray R, hk]
  cases scaleInputsO (dataArrayArith R) w.input y inKeys (timeEntryO y) with
  | error e => rfl
  | ok y' =>
    rw [Exc.ok_bind, Exc.ok_bind]
    dsimp only
    rw [if_neg (by simp), h y']
    cases (p s y' dt).2 with
    | error e => rfl
    | ok r =>
      rw [Exc.ok_bind, Exc.ok_bind, if_neg h1.1, if_neg h1.2, Exc.ok_bind]
      unfold scaleBothV
      dsimp only
      rw [scaleOutputsO_dataArray R, scaleOutputsO_dataArray R]
      cases scaleOutputsO (dataArrayArith R) w.tendency r.1 with
      | error e => rfl
      | ok t =>
        rw [Exc.ok_bind, Exc.ok_bind]
        cases scaleOutputsO (dataArrayArith R) w.diagnostic r.2 <;> rfl

theorem addIntoO_dataArray (R : Registry) : ∀ (d d1 : Dict DataArray), addIntoO (dataArrayArith R) d d1 = addInto R d d1 := by
  intro d
  induction d with
  | nil => exact fun d1 => rfl
  | cons e d ih =>
    intro d1
    obtain ⟨k, v⟩ := e
    unfold addIntoO addInto
    cases d1.get? k with
    | none => exact ih _
    | some w => simp only [ih]; rfl

theorem compositeLoopO_dataArray {σ : Type} (R : Registry) : ∀ (fs : List (σ → σ × Except Err TendOut)) (s : σ)
    (t d : Dict DataArray), compositeLoopO (dataArrayArith R) fs s t d = compositeLoop R fs s t d := by
  intro fs
  induction fs with
  | nil => exact fun s t d => rfl
  | cons f fs ih =>
    intro s t d
    unfold compositeLoopO compositeLoop
    cases (f s).2 with
    | error e => rfl
    | ok r =>
      dsimp only
      rw [addIntoO_dataArray]
      cases addInto R r.1 t with
      | error e => rfl
      | ok t' => exact ih _ _ _

/-- With the operations of DataArrays, `compositeO` is `ImplicitTendencyComponentComposite.__call__` of the other
files. -/
theorem compositeO_dataArray {σ : Type} (R : Registry) (cs : List (Comp σ)) (s : σ) (y : EState DataArray) (dt : Int) :
    compositeO (dataArrayArith R) (cs.map fun c s y dt => implicitCall c (toState y) dt s) s y dt =
      callImplicitComposite R cs s (toState y) dt := by
  unfold compositeO callImplicitComposite
  rw [List.map_map]
  exact compositeLoopO_dataArray R _ _ _ _

/-! ## Non-vacuity -/

namespace Demo

/-- A Stepper that returns the state it is given keeps any region. -/
theorem stays_keeps {F : Type} (B : (String → Nat) → Prop) :
    StepperPair Eq Eq (fun _ => AgreeOff B) (fun (s : Unit) (y : EState (ElemArray F)) _ => (s, .ok ([], y)))
      (fun s y _ => (s, .ok ([], y))) := by
  intro s s' y y' dt hz hy
  exact ⟨hz, List.Forall₂.nil, hy⟩

/-- The dye is passive for a ScalingWrapper that scales it. -/
example : PassiveFor isDye Eq (scalingO (elemArith reg exactElem) { input := [("dye", 2)], tendency := [("dye", 3)] } ["T", "dye"] dyeing) :=
  scaling_passive reg _ isDye_tendency dyeing_passive _ _

/-- The date does not matter to a Stepper that returns the state it is given, so it does not matter to its differences. -/
example (δ : Int) (A : Arith Rat) : DateBlind δ Eq (differencingO A [("T", { dims := some ["*"], units := some "K" })]
    (fun (s : Unit) (y : EState Rat) _ => (s, .ok ([], y)))) :=
  differencing_dateBlind A (fun _ _ _ _ hz => ⟨hz, rfl⟩) _

/-- A component in a ScalingWrapper that doubles its tendency, one of three in a composite whose third is a Stepper in a
TimeDifferencingWrapper. -/
example (B : (String → Nat) → Prop) : KeepsRegion B Eq (compositeO (elemArith reg (withNaN exactElem))
    [coolsAll, scalingO (elemArith reg (withNaN exactElem)) { input := [], output := [], diagnostic := [], tendency := [("T", 2)] } ["T"] coolsAll,
      differencingO (elemArith reg (withNaN exactElem)) [("T", { dims := some ["*"], units := some "K" })]
        (fun s y _ => (s, .ok ([], y)))]) :=
  composite_confined reg _ (by
    intro p hp
    simp only [List.mem_cons, List.not_mem_nil, or_false] at hp
    rcases hp with rfl | rfl | rfl
    · exact pointwise_keeps B _ _ _
    · exact scaling_confined reg _ (pointwise_keeps B _ _ _) _ _
    · exact differencing_confined reg _ (stays_keeps B) _)

/-- It does step: one step of this composite, with a NaN in the second cell. -/
example : Exc.test (tsCallO (elemArith reg (withNaN exactElem)) [] [] "" false (abCallO (elemArith reg (withNaN exactElem))
    (compositeO (elemArith reg (withNaN exactElem)) [coolsAll,
      scalingO (elemArith reg (withNaN exactElem)) { input := [], output := [], diagnostic := [], tendency := [("T", 2)] } ["T"] coolsAll,
      differencingO (elemArith reg (withNaN exactElem)) [("T", { dims := some ["*"], units := some "K" })]
        (fun s y _ => (s, .ok ([], y)))])) { order := 1 } () (twoCells none) 1000000).2.2.2
    (fun r => cellOf 0 r.2 == some (some (1358 / 5)) && cellOf 1 r.2 == some none) = true := by decide +kernel

end Demo
end Verif

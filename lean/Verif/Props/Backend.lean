import Verif.Lemmas.BackendCalls
import Verif.Props.ComponentTendencies
/-!
# C82: components under other backends
-/

namespace Verif

section
variable {R : Registry} {V : Type} {B : Backend V} {rep : V → Val → Prop}

/-- **C82, tendency components.**  Under a backend that implements the interface, a call on a
state that stands for a state of DataArrays runs `array_call` on the same arrays in the same
world, and returns quantities that stand for the tendencies and diagnostics computed with
DataArrays; or it raises the same exception. -/
theorem backend_tendency (hB : Implements R B rep) {σ : Type} (g : Tracers) (c : Class) (i : Inst)
    (f : σ → RawB V → σ × Except Err (Dict NDArray × Dict NDArray))
    (f' : σ → RawState → σ × Except Err (Dict NDArray × Dict NDArray))
    (hf : ∀ s raw raw', RepRaw rep raw raw' → f s raw = f' s raw')
    (s : σ) (state : Dict V) (state' : State) (hs : DictRel rep state state') :
    RepOut (RepPair rep) (callTendencyB B g c i f s state) (callTendency R g c i f' s state') := by
  unfold callTendencyB callTendency
  have hp := prepareB_rel hB hs g c i
  cases hx : prepareB B g c i state with
  | error e =>
    rw [hx] at hp
    cases hy : prepare R g c i state' with
    | error e' => rw [hy] at hp; exact ⟨rfl, hp⟩
    | ok y => rw [hy] at hp; exact hp.elim
  | ok x =>
    rw [hx] at hp
    cases hy : prepare R g c i state' with
    | error e' => rw [hy] at hp; exact hp.elim
    | ok y =>
      rw [hy] at hp
      simp only
      rw [hf s x y hp]
      refine ⟨rfl, (Exc.Rel.of_eq rfl).bind (fun r r' hr => ?_)⟩
      subst hr
      exact finishTendencyB_rel hB hs g c i r.1 r.2

/-- **C82, steppers.** -/
theorem backend_stepper (hB : Implements R B rep) {σ : Type} (g : Tracers) (c : Class) (i : Inst)
    (f : σ → RawB V → Int → σ × Except Err (Dict NDArray × Dict NDArray))
    (f' : σ → RawState → Int → σ × Except Err (Dict NDArray × Dict NDArray))
    (hf : ∀ s raw raw' dt, RepRaw rep raw raw' → f s raw dt = f' s raw' dt)
    (s : σ) (state : Dict V) (state' : State) (hs : DictRel rep state state') (dt : Int) :
    RepOut (RepPair rep) (callStepperB B g c i f s state dt) (callStepper R g c i f' s state' dt) := by
  unfold callStepperB callStepper
  have hp := prepareB_rel hB hs g c i
  cases hx : prepareB B g c i state with
  | error e =>
    rw [hx] at hp
    cases hy : prepare R g c i state' with
    | error e' => rw [hy] at hp; exact ⟨rfl, hp⟩
    | ok y => rw [hy] at hp; exact hp.elim
  | ok x =>
    rw [hx] at hp
    cases hy : prepare R g c i state' with
    | error e' => rw [hy] at hp; exact hp.elim
    | ok y =>
      rw [hy] at hp
      simp only
      rw [hf s x y dt hp, hp.1]
      refine ⟨rfl, (Exc.Rel.of_eq rfl).bind (fun r r' hr => ?_)⟩
      subst hr
      exact finishStepperB_rel hB hs g c i dt _ r.1 r.2

/-- **C82, diagnostic components.** -/
theorem backend_diagnostic (hB : Implements R B rep) {σ : Type} (g : Tracers) (c : Class) (i : Inst)
    (f : σ → RawB V → σ × Except Err (Dict NDArray)) (f' : σ → RawState → σ × Except Err (Dict NDArray))
    (hf : ∀ s raw raw', RepRaw rep raw raw' → f s raw = f' s raw')
    (s : σ) (state : Dict V) (state' : State) (hs : DictRel rep state state') :
    RepOut (DictRel (RepQ rep)) (callDiagnosticB B g c i f s state) (callDiagnostic R g c i f' s state') := by
  unfold callDiagnosticB callDiagnostic
  have hp := prepareB_rel hB hs g c i
  cases hx : prepareB B g c i state with
  | error e =>
    rw [hx] at hp
    cases hy : prepare R g c i state' with
    | error e' => rw [hy] at hp; exact ⟨rfl, hp⟩
    | ok y => rw [hy] at hp; exact hp.elim
  | ok x =>
    rw [hx] at hp
    cases hy : prepare R g c i state' with
    | error e' => rw [hy] at hp; exact hp.elim
    | ok y =>
      rw [hy] at hp
      simp only
      rw [hf s x y hp]
      refine ⟨rfl, (Exc.Rel.of_eq rfl).bind (fun r r' hr => ?_)⟩
      subst hr
      exact finishDiagnosticB_rel hB hs c i r

/-- **C82, tendency composites**, for containers that besides have the attributes and
operations of DataArrays: components that do the same under the backend are summed to the same. -/
theorem backend_composite_partial (hB : Implements R B rep) {O : ContainerOps V} (hO : Mimics R O rep) {σ : Type}
    {fs : List (σ → σ × Except Err (Dict V × Dict V))} {fs' : List (σ → σ × Except Err TendOut)}
    (hfs : List.Forall₂ (fun f f' => ∀ s, RepOut (RepPair rep) (f s) (f' s)) fs fs') (s : σ)
    {t d : Dict V} {t' d' : Dict DataArray} (ht : DictRel (RepQ rep) t t') (hd : DictRel (RepQ rep) d d') :
    RepOut (RepPair rep) (compositeLoopB B O fs s t d) (compositeLoop R fs' s t' d') := by
  induction hfs generalizing s t d t' d' with
  | nil => exact ⟨rfl, ht, hd⟩
  | cons hf hl ih =>
    rename_i f f' l l'
    unfold compositeLoopB compositeLoop
    obtain ⟨h1, h2⟩ := hf s
    rw [h1]
    cases hx : (f s).2 with
    | error e =>
      rw [hx] at h2
      cases hy : (f' s).2 with
      | error e' => rw [hy] at h2; exact ⟨rfl, h2⟩
      | ok y => rw [hy] at h2; exact h2.elim
    | ok x =>
      rw [hx] at h2
      cases hy : (f' s).2 with
      | error e' => rw [hy] at h2; exact h2.elim
      | ok y =>
        rw [hy] at h2
        have h3 := addIntoB_rel hB hO h2.1 ht
        simp only
        cases ha : addIntoB B O x.1 t with
        | error e =>
          rw [ha] at h3
          cases hb : addInto R y.1 t' with
          | error e' => rw [hb] at h3; exact ⟨rfl, h3⟩
          | ok y => rw [hb] at h3; exact h3.elim
        | ok a =>
          rw [ha] at h3
          cases hb : addInto R y.1 t' with
          | error e' => rw [hb] at h3; exact h3.elim
          | ok b =>
            rw [hb] at h3
            exact ih (f' s).1 h3 (hd.update h2.2)

/-- **C82, units of tendencies in time steppers**, for the same containers. -/
theorem backend_convert_partial (hB : Implements R B rep) {O : ContainerOps V} (hO : Mimics R O rep)
    {state : Dict V} {state' : State} (hs : DictRel rep state state') {t : Dict V} {t' : Dict DataArray}
    (ht : DictRel (RepQ rep) t t') :
    Exc.Rel (DictRel (RepQ rep)) (convertTendenciesB B O state t) (convertTendencies R state' t') := by
  induction ht with
  | nil => exact List.Forall₂.nil
  | cons hab hl ih =>
    rename_i a b l l'
    obtain ⟨ka, va⟩ := a
    obtain ⟨kb, vb⟩ := b
    obtain ⟨hk, hv⟩ := hab
    simp only at hk hv
    subst hk
    unfold convertTendenciesB convertTendencies
    refine (convertTendencyB_rel hB hO hs ka hv).bind (fun v v' hv' => ?_)
    exact ih.bind (fun r r' hr => List.Forall₂.cons ⟨rfl, hv'⟩ hr)

/-- **The interface of backends is not enough for composites**: whatever the backend, if its
containers have no `attrs`, two tendencies of the same quantity are not added. -/
theorem bare_containers_not_added (hB : Implements R B rep) (O : ContainerOps V)
    (hO : ∀ v a, rep v (.da a) → O.attrs v = .error .attributeError) (k : String) (w v : V) (a b : DataArray)
    (hw : rep w (.da a)) (hv : rep v (.da b)) (d1 rest : Dict V) (h1 : d1.get? k = some w) :
    addIntoB B O ((k, v) :: rest) d1 = .error .attributeError := by
  unfold addIntoB addEntryB
  rw [h1]
  simp only [hB.container w a hw, hB.container v b hv, Bool.and_self, if_true, hO w a hw]
  rfl

/-- **Units are ignored without a word if the container type is too narrow**: tendencies that
are not instances of it are used as they are, in whatever units. -/
theorem narrow_container_type (O : ContainerOps V) (state t : Dict V)
    (ht : ∀ kv ∈ t, B.isContainer kv.2 = false) : convertTendenciesB B O state t = .ok t := by
  induction t with
  | nil => rfl
  | cons kv t ih =>
    obtain ⟨k, v⟩ := kv
    unfold convertTendenciesB convertTendencyB
    have hv : B.isContainer v = false := ht _ (List.mem_cons_self ..)
    simp only [hv, Bool.false_eq_true, if_false, Exc.ok_bind, ih (fun x hx => ht x (List.mem_cons_of_mem _ hx))]

/-- The same in a composite: tendencies of two components of which one is not an instance of the
container type are added as they are, whatever their units. -/
theorem narrow_container_sum {σ : Type} (O : ContainerOps V) (k : String) (w w' v : V) (s : σ) (hw : O.copy w = .ok w')
    (hc : B.isContainer w' = false ∨ B.isContainer v = false) :
    (compositeLoopB B O [fun s => (s, .ok ([(k, w)], [])), fun s => (s, .ok ([(k, v)], []))] s [] []).2 =
      O.iadd w' v >>= fun x => .ok ([(k, x)], []) := by
  have hb : (B.isContainer w' && B.isContainer v) = false := by
    rcases hc with h | h <;> simp [h]
  have h1 : addIntoB B O [(k, w)] [] = .ok [(k, w')] := by
    rw [addIntoB]
    show (O.copy w >>= fun v' => addIntoB B O [] (Dict.set [] k v')) = _
    rw [hw]
    rfl
  have h2 : addIntoB B O [(k, v)] [(k, w')] = O.iadd w' v >>= fun x => .ok [(k, x)] := by
    rw [addIntoB, show Dict.get? [(k, w')] k = some w' by rw [Dict.get?_cons, if_pos rfl]]
    dsimp only
    rw [addEntryB, hb, if_neg (by simp)]
    cases O.iadd w' v with
    | error e => rfl
    | ok x => simp only [Exc.ok_bind, addIntoB, Dict.set, if_true]
  rw [compositeLoopB]
  simp only [h1]
  rw [compositeLoopB]
  simp only [h2]
  cases O.iadd w' v with
  | error e => rfl
  | ok x => rfl

end

/-- The default backend implements the interface, each value standing for itself: calls under
it are the calls of `Verif/Model/Components.lean`. -/
theorem default_backend (R : Registry) : Implements R (dataArrayBackend R) (fun v w => v = w) where
  dims v a h := by subst h; rfl
  shape v a h := by subst h; rfl
  array v a h n u ds lens := by subst h; rfl
  timeDims v t h := by subst h; rfl
  timeArray v t h n u ds lens := by subst h; rfl
  create data n u ds state state' _ := by
    show Exc.Rel _ (DataArray.mk' data ds [("units", u)] >>= _) _
    cases DataArray.mk' data ds [("units", u)] <;> rfl
  container v a h := by subst h; rfl

theorem default_ops (R : Registry) : Mimics R (dataArrayOps R) (fun v w => v = w) where
  attrs v a h := by subst h; rfl
  timeAttrs v t h := by subst h; rfl
  toUnits v a h u := by
    subst h
    show Exc.Rel _ (a.toUnits R u >>= _) _
    cases a.toUnits R u <;> rfl
  iadd v w a b h h' := by
    subst h; subst h'
    show Exc.Rel _ (a.iadd b >>= _) _
    cases a.iadd b <;> rfl
  add v w a b h h' := by
    subst h; subst h'
    show Exc.Rel _ (a.add b >>= _) _
    cases a.add b <;> rfl
  copy v a h := by subst h; rfl

/-- **`set_backend`**: the backend in use is the last StateBackend set, and the first one if
there was none; attempts to set something else raise a TypeError and change nothing. -/
theorem set_backend_last {β : Type} (news : List (Option β)) (b : β) :
    setBackends news b = ((news.filterMap id).getLast?).getD b ∧
    (∀ new : Option β, new = none ↔ (setBackend b new).2 = .error .typeError) ∧
    (∀ new : β, (setBackend b (some new)).2 = .ok ()) := by
  refine ⟨?_, fun new => ?_, fun _ => rfl⟩
  case refine_2 => cases new <;> simp [setBackend]
  induction news generalizing b with
  | nil => rfl
  | cons n rest ih =>
    unfold setBackends
    rw [ih]
    cases n with
    | none => rfl
    | some x =>
      show ((rest.filterMap id).getLast?).getD x = ((x :: rest.filterMap id).getLast?).getD b
      cases rest.filterMap id with
      | nil => rfl
      | cons y ys => simp [List.getLast?_cons]

/-! ## A backend that is not the default one -/

namespace Demo

/-- A container that keeps its axes in the reverse order, and has no methods. -/
structure FArr where
  axes : List String
  data : NDArray
  attrs : Dict String

inductive FVal where
  | arr (f : FArr)
  | time (t : Int)

def FArr.toDA (f : FArr) : DataArray :=
  ⟨f.axes.reverse, ⟨f.data.shape.reverse, fun idx => f.data.get idx.reverse⟩, f.attrs⟩

def fOfDA (a : DataArray) : FArr := ⟨a.dims.reverse, ⟨a.arr.shape.reverse, fun idx => a.arr.get idx.reverse⟩, a.attrs⟩

def fRep : FVal → Val → Prop
  | .arr f, .da a => f.toDA = a
  | .time t, .time t' => t = t'
  | _, _ => False

def fBackend (R : Registry) : Backend FVal where
  getArray v _ u ds lens := match v with
    | .arr f => getArray R f.toDA u ds lens
    | .time _ => .error .attributeError
  create data _ u ds _ := if ds.length = data.shape.length
    then .ok (.arr ⟨ds.reverse, ⟨data.shape.reverse, fun idx => data.get idx.reverse⟩, [("units", u)]⟩)
    else .error .valueError
  dims v := match v with
    | .arr f => .ok f.axes.reverse
    | .time _ => .error .attributeError
  shape v := match v with
    | .arr f => .ok f.data.shape.reverse
    | .time _ => .error .attributeError
  isContainer v := match v with
    | .arr _ => true
    | .time _ => false

theorem fBackend_implements (R : Registry) : Implements R (fBackend R) fRep where
  dims v a h := by cases v <;> cases h; rfl
  shape v a h := by cases v <;> cases h; rfl
  array v a h n u ds lens := by cases v <;> cases h; rfl
  timeDims v t h := by cases v <;> cases h; rfl
  timeArray v t h n u ds lens := by cases v <;> cases h; rfl
  create data n u ds state state' _ := by
    show Exc.Rel _ (if _ then _ else _) _
    unfold DataArray.mk'
    split
    · show FArr.toDA _ = _
      simp only [FArr.toDA, List.reverse_reverse]
    · rfl
  container v a h := by cases v <;> cases h; rfl

/-- The state `Demo.state` in these containers. -/
def fState : Dict FVal := [("T", .arr (fOfDA temp)), ("h", .arr (fOfDA prof)), ("time", .time 0)]

theorem fState_rep : DictRel fRep fState state := by
  refine List.Forall₂.cons ⟨rfl, ?_⟩ (List.Forall₂.cons ⟨rfl, ?_⟩ (List.Forall₂.cons ⟨rfl, rfl⟩ List.Forall₂.nil))
  · show (fOfDA temp).toDA = temp
    simp only [fOfDA, FArr.toDA, List.reverse_reverse]
  · show (fOfDA prof).toDA = prof
    simp only [fOfDA, FArr.toDA, List.reverse_reverse]

/-- Its containers have no attributes or operations of DataArrays. -/
def bareOps : ContainerOps FVal where
  attrs _ := .error .attributeError
  toUnits _ _ := .error .attributeError
  iadd _ _ := .error .typeError
  add _ _ := .error .typeError
  copy v := .ok v

/-- A component with a tendency of `T` in K per second, under the default and the other backend. -/
def fTend : Dict FVal × Dict FVal := ([("T", .arr (fOfDA { temp with attrs := [("units", "K s^-1")] }))], [])
def daTend : TendOut := ([("T", { temp with attrs := [("units", "K s^-1")] })], [])

end Demo

/-- Non-vacuity: the component `Demo.made` runs under this backend, and returns containers
with reversed axes. -/
example : (callTendencyB (Demo.fBackend Demo.reg) {} (Demo.made true).1 (Demo.made true).2
      (fun s raw => Demo.ac s ⟨raw.arrays, .time 0⟩) 0 Demo.fState).1 =
    (callTendency Demo.reg {} (Demo.made true).1 (Demo.made true).2
      (fun s raw => Demo.ac s ⟨raw.arrays, .time 0⟩) 0 Demo.state).1 ∧
    Exc.test (callTendencyB (Demo.fBackend Demo.reg) {} (Demo.made true).1 (Demo.made true).2
      (fun s raw => Demo.ac s ⟨raw.arrays, .time 0⟩) 0 Demo.fState).2 (fun r => decide (r.1.length > 0) && r.1.all fun kv =>
        match kv.2 with
        | .arr f => decide (f.axes = ["y", "x", "z"])
        | .time _ => false) = true := by
  decide +kernel

/-- **C82 is false of composites**: under a backend that implements the interface, the composite
of two components that both have a tendency of `T` raises AttributeError, though each of the
components does what it does with DataArrays, and the composite of those adds the tendencies. -/
theorem composite_needs_dataarrays :
    Implements Demo.reg (Demo.fBackend Demo.reg) Demo.fRep ∧
    RepPair Demo.fRep Demo.fTend Demo.daTend ∧
    (compositeLoopB (Demo.fBackend Demo.reg) Demo.bareOps
      [fun s => (s + 1, .ok Demo.fTend), fun s => (s + 1, .ok Demo.fTend)] 0 [] []).2 = .error .attributeError ∧
    Exc.test (compositeLoop Demo.reg [fun s => (s + 1, .ok Demo.daTend), fun s => (s + 1, .ok Demo.daTend)] 0 [] []).2
      (fun r => Exc.test (r.1.get "T") fun t => decide (t.arr.get [1, 2, 1] = 242)) = true := by
  refine ⟨Demo.fBackend_implements Demo.reg, ⟨List.Forall₂.cons ⟨rfl, ?_⟩ List.Forall₂.nil, List.Forall₂.nil⟩, rfl,
    by decide +kernel⟩
  show (Demo.fOfDA { Demo.temp with attrs := [("units", "K s^-1")] }).toDA = _
  simp only [Demo.fOfDA, Demo.FArr.toDA, List.reverse_reverse]

/-- Non-vacuity of `narrow_container_type`: a backend whose `create_quantity` is the default one
but whose container type is another class leaves K per day in a state of K. -/
example : (convertTendenciesB { dataArrayBackend Demo.reg with isContainer := fun _ => false } (dataArrayOps Demo.reg)
      Demo.state [("T", .da { Demo.temp with attrs := [("units", "K day^-1")] })]) =
    .ok [("T", .da { Demo.temp with attrs := [("units", "K day^-1")] })] ∧
    Exc.test (convertTendenciesB (dataArrayBackend Demo.reg) (dataArrayOps Demo.reg)
      Demo.state [("T", .da { Demo.temp with attrs := [("units", "K day^-1")] })]) (fun t => t.all fun kv =>
        match kv.2 with
        | .da a => decide (a.arr.get [1, 2, 1] = 121 / 86400)
        | .time _ => false) = true := by
  refine ⟨narrow_container_type _ _ _ (fun _ _ => rfl), by decide +kernel⟩

/-- Non-vacuity of `narrow_container_sum`: 121 K per day and 121 K per second make 242 K per day. -/
example : Exc.test (compositeLoopB { dataArrayBackend Demo.reg with isContainer := fun _ => false } (dataArrayOps Demo.reg)
      [fun s => (s, .ok ([("T", .da { Demo.temp with attrs := [("units", "K day^-1")] })], [])),
        fun s => (s, .ok ([("T", .da { Demo.temp with attrs := [("units", "K s^-1")] })], []))] () [] []).2
      (fun r => r.1.all fun kv => match kv.2 with
        | .da a => decide (a.arr.get [1, 2, 1] = 242) && decide (a.attrs.get? "units" = some "K day^-1")
        | .time _ => false) = true := by
  decide +kernel

example : setBackends [some 1, none, some 2, none] 0 = 2 := by decide

end Verif

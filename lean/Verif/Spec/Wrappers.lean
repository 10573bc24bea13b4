import Verif.Model.Wrappers
import Verif.Spec.Arrays
/-!
# Specifications for the wrappers
-/

namespace Verif

/-! ## UpdateFrequencyWrapper -/

/-- New output is due at time `t`, given the completed runs (time and output, newest
first). -/
def Due {Out : Type} (delta : Int) (runs : List (Int × Out)) (t : Int) : Prop :=
  ∀ τ o rest, runs = (τ, o) :: rest → t - τ ≥ delta

/-- What a sequence of calls should do.  `UFSpec … runs s calls results runs' s'`:
after the completed runs `runs`, with the component in world `s`, the calls (state and
timestep) have these results, and then the completed runs are `runs'` and the world is
`s'`. -/
inductive UFSpec {σ S Out : Type} (time : S → Except Err Int) (delta : Int)
    (run : σ → S → Option Int → σ × Except Err Out) :
    List (Int × Out) → σ → List (S × Option Int) → List (Except Err (Option Out)) →
    List (Int × Out) → σ → Prop
  | done {runs s} : UFSpec time delta run runs s [] [] runs s
  | kept {runs s x dt t τ o rest calls results runs' s'} : time x = .ok t →
      runs = (τ, o) :: rest → ¬ Due delta runs t →
      UFSpec time delta run runs s calls results runs' s' →
      UFSpec time delta run runs s ((x, dt) :: calls) (.ok (some o) :: results) runs' s'
  | ran {runs s x dt t o s1 calls results runs' s'} : time x = .ok t → Due delta runs t →
      run s x dt = (s1, .ok o) →
      UFSpec time delta run ((t, o) :: runs) s1 calls results runs' s' →
      UFSpec time delta run runs s ((x, dt) :: calls) (.ok (some o) :: results) runs' s'
  | raised {runs s x dt t e s1 calls results runs' s'} : time x = .ok t → Due delta runs t →
      run s x dt = (s1, .error e) →
      UFSpec time delta run runs s1 calls results runs' s' →
      UFSpec time delta run runs s ((x, dt) :: calls) (.error e :: results) runs' s'

/-- The calls made one after the other. -/
def ufCalls {σ S Out : Type} (time : S → Except Err Int)
    (comp : σ → S → Option Int → σ × Except Err Out) :
    List (S × Option Int) → UFW Out → σ → UFW Out × σ × List (Except Err (Option Out))
  | [], w, s => (w, s, [])
  | (x, dt) :: calls, w, s =>
    let r := w.call time comp s x dt
    let rest := ufCalls time comp calls r.1 r.2.1
    (rest.1, rest.2.1, r.2.2 :: rest.2.2)

/-! ## ScalingWrapper -/

/-- `b` is `a` with every value multiplied by `c`. -/
def IsScaledBy (c : Rat) (a b : DataArray) : Prop :=
  b.dims = a.dims ∧ b.attrs = a.attrs ∧ b.arr.shape = a.arr.shape ∧
    ∀ idx, b.arr.get idx = c * a.arr.get idx

/-- The arrays a dictionary refers to are all different objects. -/
def Unshared (d : RState) : Prop := d.Pairwise fun a b => ∀ l, a.2 = .ref l → b.2 ≠ .ref l

/-- Every array object of a dictionary exists. -/
def Valid {σ : Type} (m : WMem σ) (d : RState) : Prop := ∀ kv ∈ d, ∀ l, kv.2 = .ref l → l < m.arrays.length

/-- The present value of an entry. -/
def WMem.val {σ : Type} (m : WMem σ) : RVal → Val
  | .ref l => .da (m.at' l)
  | .time t => .time t

/-- The present values of a dictionary. -/
def WMem.vals {σ : Type} (m : WMem σ) (d : RState) : State := Dict.mapVal m.val d

/-- How ScalingWrapper classifies a component. -/
def scalingKind (o : Obj) : Option Kind :=
  [Kind.stepper, .tendency, .implicit, .diagnostic].find? fun k => isInstance k o

/-- The factors for the two dictionaries a component of a kind returns. -/
def Scaling.factors (w : Scaling) : Kind → Dict Rat × Dict Rat
  | .stepper => (w.diagnostic, w.output)
  | .tendency => (w.tendency, w.diagnostic)
  | .implicit => (w.tendency, w.diagnostic)
  | .diagnostic => (w.diagnostic, [])

/-- Does a component of a kind take the timestep? -/
def takesTimestep : Kind → Bool
  | .stepper => true
  | .implicit => true
  | _ => false

/-- `y` is the entry `x` multiplied by the factor, if there is one. -/
def ScaledEntry (c : Option Rat) (x y : Val) : Prop :=
  match c, x, y with
  | none, x, y => y = x
  | some c, .da a, .da b => IsScaledBy c a b
  | some _, _, _ => False

/-- `d'` is `d` with the named entries multiplied by their factors. -/
def ScaledDict (f : Dict Rat) (d d' : State) : Prop :=
  Dict.keys d' = Dict.keys d ∧ (∀ k ∈ f.keys, k ∈ Dict.keys d) ∧
  ∀ k x, Dict.get? d k = some x → ∃ y, Dict.get? d' k = some y ∧ ScaledEntry (f.get? k) x y

end Verif

import Verif.Spec.Rounding
import Verif.Spec.TimeSteppers
/-! # Bounds for the rounding errors of time steppers -/

namespace Verif

/-- The size of the terms of an Adams-Bashforth step: `|x| + |dt| * (sum of |coefficient| * |tendency|)`. -/
def abSize (m : Nat) (x dt : Rat) (past : Nat → Rat) : Rat :=
  |x| + |dt| * ((List.range m).map fun j => |abCoef m j| * |past j|).sum

/-- Elements (`I` says which) of the quantities of two states differ by at most `E`, each measured
on the scale `w` of its quantity. -/
structure CloseStates (I : (String → Nat) → Prop) (w : String → Rat) (E : Rat) (x y : EState DataArray) : Prop where
  keys : ∀ q, q ∈ Dict.keys x ↔ q ∈ Dict.keys y
  close : ∀ q a b, Dict.get? x q = some (.da a) → Dict.get? y q = some (.da b) →
    ∀ ix, I ix → |a.at' ix - b.at' ix| ≤ E * w q

/-- Elements of tendencies differ by at most `D`. -/
structure TendWithin (I : (String → Nat) → Prop) (w : String → Rat) (D : Rat) (x y : Dict DataArray) : Prop where
  keys : Dict.keys x = Dict.keys y
  close : ∀ q ix, I ix → |tval x q ix - tval y q ix| ≤ D * w q

/-- Elements of tendencies are at most `T`. -/
def TendSized (I : (String → Nat) → Prop) (w : String → Rat) (T : Rat) (x : Dict DataArray) : Prop :=
  ∀ q ix, I ix → |tval x q ix| ≤ T * w q

/-- Elements of the quantities of a state are at most `X`. -/
def StateSized (I : (String → Nat) → Prop) (w : String → Rat) (X : Rat) (x : EState DataArray) : Prop :=
  ∀ q a, Dict.get? x q = some (.da a) → ∀ ix, I ix → |a.at' ix| ≤ X * w q

/-- The components `p` (computed with `A`) approximate the components `p'` (computed with `A'`): on states
that differ by at most `E`, of elements at most `X`, the tendencies (in the units of the states per second) differ
by at most `L * E + e`.  `M` relates their worlds. -/
structure Approximates {σ σ' : Type} (I : (String → Nat) → Prop) (w : String → Rat) (X L e : Rat) (M : σ → σ' → Prop)
    (A A' : Arith DataArray) (p : ProgOver σ DataArray) (p' : ProgOver σ' DataArray) : Prop where
  world : ∀ s s' x y dt E, M s s' → CloseStates I w E x y → M (p s x dt).1 (p' s' y dt).1
  tend : ∀ s s' x y dt E r r' t t', M s s' → CloseStates I w E x y → 0 ≤ E → StateSized I w X x →
    (p s x dt).2 = .ok r → (p' s' y dt).2 = .ok r' →
    convertTendenciesO A x r.1 = .ok t → convertTendenciesO A' y r'.1 = .ok t' → TendWithin I w (L * E + e) t t'

/-- What the loops of two runs do between steps brings their states no further apart. -/
def BetweenWithin (I : (String → Nat) → Prop) (w : String → Rat)
    (b b' : Dict DataArray → EState DataArray → EState DataArray) : Prop :=
  ∀ E d d' x y, CloseStates I w E x y → CloseStates I w E (b d x) (b' d' y)

/-- The bound: errors are made in each step, at most `g`, and each grows by the factor `k` in each later step. -/
def grownErrors (k g E : Rat) (n : Nat) : Rat := k ^ n * E + ((List.range n).map fun i => k ^ i).sum * g

end Verif

import Verif.Spec.RoundingErrors
/-! # Bounds for the rounding errors of Runge-Kutta steps -/

namespace Verif

/-- A bound for the values in all stages of a Runge-Kutta step from values of at most `X`, if tendencies are at most `T`. -/
def stageSize (u X T : Rat) (dt : Int) : Rat := (1 + u) ^ 18 * (X + 3 * (|seconds dt| * T))

/-- The tendencies the components give for states with values of at most `Y` are at most `T`. -/
def TendBounded {σ : Type} (I : (String → Nat) → Prop) (w : String → Rat) (Y T : Rat) (A : Arith DataArray)
    (p : ProgOver σ DataArray) (dt : Int) : Prop :=
  ∀ s x r t, StateSized I w Y x → (p s x dt).2 = .ok r → convertTendenciesO A x r.1 = .ok t → TendSized I w T t

/-- What the loop does between steps leaves a dict a dict. -/
def BetweenDicts (b : Dict DataArray → EState DataArray → EState DataArray) : Prop :=
  ∀ d x, (Dict.keys x).Nodup → (Dict.keys (b d x)).Nodup

/-- How differences grow in a step: the polynomial of Taylor of `exp z`, up to the number of stages. -/
def stageGrowth (three : Bool) (z : Rat) : Rat := 1 + z + z ^ 2 / 2 + if three then z ^ 3 / 6 else 0

/-- The difference that a stage adds: that of the tendencies, and five roundings. -/
def eulerError (u e Y T : Rat) (dt : Int) : Rat := |seconds dt| * e + ((1 + u) ^ 5 - 1) * (Y + |seconds dt| * T)

/-- The difference that a step adds: those of its stages, and of its means with three roundings each. -/
def stageError (three : Bool) (u L e Y T : Rat) (dt : Int) : Rat :=
  (1 + |seconds dt| * L / 2 + if three then (|seconds dt| * L) ^ 2 / 6 else 0) * eulerError u e Y T dt +
    (if three then 5 / 3 + 2 / 3 * (|seconds dt| * L) else 1) * (((1 + u) ^ 3 - 1) * Y)

end Verif

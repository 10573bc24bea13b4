import Verif.Model.SteppersOver
import Mathlib.Data.Int.Log
import Mathlib.Data.Rat.Floor
/-!
# Arithmetic that rounds

The code computes with floating-point numbers: every operation of numpy on the elements of arrays
gives the exact result rounded to a number that the type can hold, and every constant in the code
(`23./12`, `timestep.total_seconds()`, …) is itself such a number.  `fl` is that rounding, from
numbers to the numbers that the type can hold.  The time steppers of
`Verif/Model/SteppersOver.lean` with `roundedArith fl conv` in place of `dataArrayArith` compute
what the code computes with such numbers.

Simplified: `1 / 2 * strength`, `alpha - 1` and `2 * t` of `step_leapfrog` are constants that are rounded once
(`smul`).  Conversions between units are a parameter.  Not modelled: overflow, underflow, infinities, NaN.
-/

namespace Verif

/-- The elements of an array rounded. -/
def DataArray.rounded (fl : Rat → Rat) (a : DataArray) : DataArray := { a with arr := a.arr.map fl }

/-- The operations of DataArrays whose elements are rounded (dataarray.py:10-22; `c * a` with the
constant `c` rounded as well); `conv` is `a.to_units(units)` (dataarray.py:24-54). -/
def roundedArith (fl : Rat → Rat) (conv : DataArray → String → Except Err DataArray) : Arith DataArray where
  add a b := a.add b >>= fun r => .ok (r.rounded fl)
  sub a b := a.sub b >>= fun r => .ok (r.rounded fl)
  iadd a b := a.iadd b >>= fun r => .ok (r.rounded fl)
  smul c a := (a.smul (fl c)).rounded fl
  divide a c := { a with arr := a.arr.map (fun x => fl (fl (x / fl c) * 1)), attrs := [] }
  toUnits := conv
  attrs a := a.attrs
  setAttrs a m := { a with attrs := m }
  isContainer _ := true

/-- The nearest integer; the even one of two that are equally near. -/
def roundEven (y : Rat) : Int :=
  if y - ⌊y⌋ < 1 / 2 then ⌊y⌋
  else if 1 / 2 < y - ⌊y⌋ then ⌊y⌋ + 1
  else if ⌊y⌋ % 2 = 0 then ⌊y⌋ else ⌊y⌋ + 1

/-- The rounding of `float64` (IEEE 754 binary64, to nearest, ties to even), without its bounds on
exponents: 53 binary digits. -/
def binary64 (x : Rat) : Rat :=
  if x = 0 then 0 else roundEven (x * 2 ^ (52 - Int.log 2 |x|)) * 2 ^ (Int.log 2 |x| - 52)

/-- `n` turns of a main loop with a time stepper called as `call`: `diagnostics, state =
stepper(state, timestep)`, then whatever the loop does with the diagnostics and the new state. -/
def runOver {V τ σ : Type} (call : τ → σ → EState V → Int → τ × σ × EState V × Except Err (Dict V × EState V))
    (between : Dict V → EState V → EState V) (dt : Int) : Nat → τ → σ → EState V → τ × σ × Except Err (EState V)
  | 0, x, s, state => (x, s, .ok state)
  | n + 1, x, s, state =>
    match call x s state dt with
    | (x, s, _, .error e) => (x, s, .error e)
    | (x, s, _, .ok (diag, new)) => runOver call between dt n x s (between diag new)

end Verif

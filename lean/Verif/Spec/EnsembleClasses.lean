import Verif.Spec.Ensemble
import Verif.Model.Components
import Verif.Spec.Arrays
/-!
# Component classes that turn means into means (C121)
-/

namespace Verif

variable {ι : Type}

/-- What happens to all members and to the mean alike: the same exception, or results that
are related. -/
def Joint {α : Type} (Q : (ι → α) → α → Prop) (xs : ι → Except Err α) (y : Except Err α) : Prop :=
  (∃ e, (∀ i, xs i = .error e) ∧ y = .error e) ∨ ∃ v a, (∀ i, xs i = .ok (v i)) ∧ y = .ok a ∧ Q v a

/-- `a` is the mean of the raw arrays `v`: same shapes, and every element is the weighted sum. -/
structure ArrMean [Fintype ι] (w : ι → Rat) (v : ι → NDArray) (a : NDArray) : Prop where
  shape : ∀ i, (v i).shape = a.shape
  val : ∀ idx, InB idx a.shape → a.get idx = ∑ i, w i * (v i).get idx

/-- Raw arrays with the same shape. -/
def SameShape (v : ι → NDArray) (a : NDArray) : Prop := ∀ i, (v i).shape = a.shape

/-- Dictionaries of the members and of the mean: same keys in the same order, related values. -/
def DictMean {α : Type} (Q : (ι → α) → α → Prop) (d : ι → Dict α) (e : Dict α) : Prop :=
  ∃ T : Dict (ι → α), (∀ i, d i = Dict.mapVal (fun v => v i) T) ∧ DictRel Q T e

/-- What `array_call` gets for the members and for the mean. -/
structure RawMean [Fintype ι] (w : ι → Rat) (raws : ι → RawState) (raw : RawState) : Prop where
  arrays : DictMean (ArrMean w) (fun i => (raws i).arrays) raw.arrays
  time : ∃ e : Entry (ι → DataArray), (∀ i, (raws i).time = memberVal i e) ∧ EntryRel (fun _ => MeanOf w) "time" e raw.time

/-- An `array_call` whose dictionaries of arrays are related by `P` and `Q` (for the mean: `ArrMean w`)
to those for the members if its input is the mean of their inputs, or which raises the same exception for all. -/
def ArraysKeepMeans [Fintype ι] {σ : Type} (w : ι → Rat) (P Q : (ι → NDArray) → NDArray → Prop)
    (ac : σ → RawState → σ × Except Err (Dict NDArray × Dict NDArray)) : Prop :=
  ∀ s raws raw, RawMean w raws raw → (∀ i, (ac s (raws i)).1 = (ac s raw).1) ∧
    Joint (fun r q => DictMean P (fun i => (r i).1) q.1 ∧ DictMean Q (fun i => (r i).2) q.2)
      (fun i => (ac s (raws i)).2) (ac s raw).2

/-- Declared dims that give no output the same axis twice: none is listed twice, and inputs with a wildcard
list all dims that outputs with a wildcard list. -/
def TidyDims (inP outP : PropDict) : Prop :=
  ∀ kv ∈ outP, ∀ dims, effDims inP kv.1 kv.2 = some dims → dims.Nodup ∧
    ("*" ∈ dims → ∀ q ∈ inP, ∀ ds, q.2.dims = some ds → "*" ∈ ds → ∀ d ∈ dims, d ≠ "*" → d ∈ ds)

/-- DataArrays with the same axes and attributes, whose values are related. -/
structure ArrayRel (Q : (ι → NDArray) → NDArray → Prop) (v : ι → DataArray) (a : DataArray) : Prop where
  dims : ∀ i, (v i).dims = a.dims
  attrs : ∀ i, (v i).attrs = a.attrs
  rank : a.dims.length = a.arr.shape.length
  arr : Q (fun i => (v i).arr) a.arr

end Verif

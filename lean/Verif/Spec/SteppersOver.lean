import Verif.Model.SteppersOver
import Verif.Spec.Backend
/-!
# When other arrays stand for DataArrays in a time stepper (C89)
-/

namespace Verif

/-- The entries of two dictionaries correspond, in order, under the same keys; the relation may
depend on the key. -/
def KeyRel {α β : Type} (r : String → α → β → Prop) (d : Dict α) (e : Dict β) : Prop :=
  List.Forall₂ (fun a b => a.1 = b.1 ∧ r a.1 a.2 b.2) d e

/-- Entries of states: quantities correspond, times are equal. -/
def EntryRel {V : Type} (S : String → V → DataArray → Prop) (k : String) : Entry V → Val → Prop
  | .da v, .da a => S k v a
  | .time t, .time t' => t = t'
  | _, _ => False

/-- States whose quantities correspond. -/
abbrev StateRel {V : Type} (S : String → V → DataArray → Prop) (s : EState V) (s' : State) : Prop :=
  KeyRel (EntryRel S) s s'

/-- `S k v a`: the value `v` found in a state under the name `k` stands for `a`; `T k v a`: the
tendency `v` of `k` stands for `a`; `W v a`: the diagnostic `v` stands for `a`.  The operations
on such values give values that stand for what the operations on DataArrays give. -/
structure StandFor (R : Registry) {V : Type} (A : Arith V) (S T : String → V → DataArray → Prop)
    (W : V → DataArray → Prop) : Prop where
  attrsS : ∀ {k v a}, S k v a → A.attrs v = a.attrs
  attrsT : ∀ {k v a}, T k v a → A.attrs v = a.attrs
  container : ∀ {k v a}, T k v a → A.isContainer v = true
  toUnitsS : ∀ {k v a}, S k v a → ∀ u, Exc.Rel (S k) (A.toUnits v u) (a.toUnits R u)
  toUnitsT : ∀ {k v a}, T k v a → ∀ u, Exc.Rel (T k) (A.toUnits v u) (a.toUnits R u)
  smulS : ∀ {k v a}, S k v a → ∀ c, S k (A.smul c v) (a.smul c)
  smulT : ∀ {k v a}, T k v a → ∀ c, T k (A.smul c v) (a.smul c)
  setAttrs : ∀ {k v a}, S k v a → ∀ m, S k (A.setAttrs v m) { a with attrs := m }
  divide : ∀ {k v a}, S k v a → ∀ c, S k (A.divide v c) { a with arr := a.arr.map (fun x => x / c * 1), attrs := [] }
  addSS : ∀ {k v a w b}, S k v a → S k w b → Exc.Rel (S k) (A.add v w) (a.add b)
  addST : ∀ {k v a w b}, S k v a → T k w b → Exc.Rel (S k) (A.add v w) (a.add b)
  addTT : ∀ {k v a w b}, T k v a → T k w b → Exc.Rel (T k) (A.add v w) (a.add b)
  subSS : ∀ {k v a w b}, S k v a → S k w b → Exc.Rel (S k) (A.sub v w) (a.sub b)
  subTT : ∀ {k v a w b}, T k v a → T k w b → Exc.Rel (T k) (A.sub v w) (a.sub b)
  iadd : ∀ {k v a w b}, S k v a → S k w b → Exc.Rel (S k) (A.iadd v w) (a.iadd b)
  diag : ∀ {k v a}, S k v a → W v a

/-- Components that, on states that correspond, leave the world the same and return tendencies
and diagnostics that correspond, or raise the same exception. -/
def ProgRel {V σ : Type} (S T : String → V → DataArray → Prop) (W : V → DataArray → Prop)
    (p : ProgOver σ V) (p' : Prog σ) : Prop :=
  ∀ s state state' dt, StateRel S state state' →
    (p s state dt).1 = (p' s state' dt).1 ∧
    Exc.Rel (fun x y => KeyRel T x.1 y.1 ∧ DictRel W x.2 y.2) (p s state dt).2 (p' s state' dt).2

/-- Corresponding memories of an AdamsBashforth. -/
def ABOverRel {V : Type} (T : String → V → DataArray → Prop) (x : ABOver V) (y : AB) : Prop :=
  x.order = y.order ∧ x.timestep = y.timestep ∧ List.Forall₂ (KeyRel T) x.hist y.hist

/-- Corresponding old states of a Leapfrog. -/
def OldRel {V : Type} (S : String → V → DataArray → Prop) : Option (EState V) → Option State → Prop
  | none, none => True
  | some s, some s' => StateRel S s s'
  | _, _ => False

/-- Corresponding memories of a Leapfrog. -/
def LFOverRel {V : Type} (S : String → V → DataArray → Prop) (x : LFOver V) (y : LF) : Prop :=
  x.strength = y.strength ∧ x.alpha = y.alpha ∧ x.timestep = y.timestep ∧ OldRel S x.old y.old

/-- Corresponding results of a time stepper: diagnostics and new state. -/
def StepRel {V : Type} (S : String → V → DataArray → Prop) (W : V → DataArray → Prop)
    (x : Except Err (Dict V × EState V)) (y : Except Err (Dict DataArray × State)) : Prop :=
  Exc.Rel (fun a b => DictRel W a.1 b.1 ∧ StateRel S a.2 b.2) x y

end Verif

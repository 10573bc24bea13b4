import Verif.Spec.Commutes
import Verif.Spec.SteppersOver
/-!
# Correspondence that depends on the quantity (C96, C97)

`S k a b`: the arrays `a` and `b` found under the name `k` in two states correspond;
`T k a b`: the tendencies `a` and `b` of `k` correspond; `W a b`: the diagnostics `a` and
`b` correspond.
-/

namespace Verif

/-- States with the same names in the same order, whose quantities correspond. -/
abbrev StatesRelK (S : String → DataArray → DataArray → Prop) (s s' : State) : Prop :=
  KeyRel (fun k => ValRel (S k)) s s'

/-- Components which, on states that correspond, do the same to the world and return
tendencies and diagnostics that correspond, or raise the same exception. -/
def ProgsRelK {σ : Type} (S T : String → DataArray → DataArray → Prop) (W : DataArray → DataArray → Prop)
    (p p' : Prog σ) : Prop :=
  ∀ s state state' dt, StatesRelK S state state' →
    (p s state dt).1 = (p' s state' dt).1 ∧
    Exc.Rel (fun x y => KeyRel T x.1 y.1 ∧ DictRel W x.2 y.2) (p s state dt).2 (p' s state' dt).2

/-- Corresponding memories of an AdamsBashforth. -/
def ABsRelK (T : String → DataArray → DataArray → Prop) (x y : AB) : Prop :=
  x.order = y.order ∧ x.timestep = y.timestep ∧ List.Forall₂ (KeyRel T) x.hist y.hist

/-- Corresponding memories of a Leapfrog. -/
def LFsRelK (S : String → DataArray → DataArray → Prop) (x y : LF) : Prop :=
  x.strength = y.strength ∧ x.alpha = y.alpha ∧ x.timestep = y.timestep ∧
    match x.old, y.old with
    | none, none => True
    | some s, some s' => StatesRelK S s s'
    | _, _ => False

/-- Corresponding results of a call: the stepper afterwards, the components' world, the
state passed in, and what is returned or raised. -/
def CallRelK {τ σ : Type} (M : τ → τ → Prop) (S : String → DataArray → DataArray → Prop)
    (W : DataArray → DataArray → Prop) (r r' : τ × σ × State × Except Err (Dict DataArray × State)) : Prop :=
  M r.1 r'.1 ∧ r.2.1 = r'.2.1 ∧ StatesRelK S r.2.2.1 r'.2.2.1 ∧
    Exc.Rel (fun a b => DictRel W a.1 b.1 ∧ StatesRelK S a.2 b.2) r.2.2.2 r'.2.2.2

/-- Corresponding ends of runs. -/
def RunRelK {τ σ : Type} (M : τ → τ → Prop) (S : String → DataArray → DataArray → Prop) :
    Option (τ × σ × State) → Option (τ × σ × State) → Prop
  | none, none => True
  | some r, some r' => M r.1 r'.1 ∧ r.2.1 = r'.2.1 ∧ StatesRelK S r.2.2 r'.2.2
  | _, _ => False

end Verif

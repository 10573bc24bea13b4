import Verif.Spec.SteppersOver
import Verif.Model.Wrappers
/-!
# Two kinds of arrays in the same time stepper (C122)

`Verif/Spec/SteppersOver.lean` with any arrays in place of the DataArrays.
-/

namespace Verif

variable {V U : Type}

/- `θ` relates the times of the two, `Z` the worlds of the components. -/

/-- Entries of states: quantities are related, and so are times. -/
def EntryPair (θ : Int → Int → Prop) (S : String → V → U → Prop) (k : String) : Entry V → Entry U → Prop
  | .da v, .da a => S k v a
  | .time t, .time t' => θ t t'
  | _, _ => False

/-- States with the same names in the same order, whose quantities are related. -/
abbrev PairRel (θ : Int → Int → Prop) (S : String → V → U → Prop) (s : EState V) (s' : EState U) : Prop := KeyRel (EntryPair θ S) s s'

/-- The operations on related values give related values, or raise the same exception: `S` relates
the values of states, `T` tendencies, `W` diagnostics. -/
structure Alike (A : Arith V) (B : Arith U) (S T : String → V → U → Prop) (W : String → V → U → Prop) : Prop where
  attrsS : ∀ {k v a}, S k v a → A.attrs v = B.attrs a
  attrsT : ∀ {k v a}, T k v a → A.attrs v = B.attrs a
  container : ∀ {k v a}, T k v a → A.isContainer v = B.isContainer a
  toUnitsS : ∀ {k v a}, S k v a → ∀ u, Exc.Rel (S k) (A.toUnits v u) (B.toUnits a u)
  toUnitsT : ∀ {k v a}, T k v a → ∀ u, Exc.Rel (T k) (A.toUnits v u) (B.toUnits a u)
  smulS : ∀ {k v a}, S k v a → ∀ c, S k (A.smul c v) (B.smul c a)
  smulT : ∀ {k v a}, T k v a → ∀ c, T k (A.smul c v) (B.smul c a)
  setAttrs : ∀ {k v a}, S k v a → ∀ m, S k (A.setAttrs v m) (B.setAttrs a m)
  divide : ∀ {k v a}, S k v a → ∀ c, S k (A.divide v c) (B.divide a c)
  addSS : ∀ {k v a w b}, S k v a → S k w b → Exc.Rel (S k) (A.add v w) (B.add a b)
  addST : ∀ {k v a w b}, S k v a → T k w b → Exc.Rel (S k) (A.add v w) (B.add a b)
  addTT : ∀ {k v a w b}, T k v a → T k w b → Exc.Rel (T k) (A.add v w) (B.add a b)
  subSS : ∀ {k v a w b}, S k v a → S k w b → Exc.Rel (S k) (A.sub v w) (B.sub a b)
  subTT : ∀ {k v a w b}, T k v a → T k w b → Exc.Rel (T k) (A.sub v w) (B.sub a b)
  iadd : ∀ {k v a w b}, S k v a → S k w b → Exc.Rel (S k) (A.iadd v w) (B.iadd a b)
  diag : ∀ {k v a}, S k v a → ∀ inst, W (tendencyName k inst) v a

/-- Components that, in related worlds and on related states, leave related worlds and return related tendencies and
diagnostics, or raise the same exception. -/
def ProgPair {σ σ' : Type} (θ : Int → Int → Prop) (Z : σ → σ' → Prop) (S T : String → V → U → Prop) (W : String → V → U → Prop)
    (p : ProgOver σ V) (p' : ProgOver σ' U) : Prop :=
  ∀ s s' state state' dt, Z s s' → PairRel θ S state state' →
    Z (p s state dt).1 (p' s' state' dt).1 ∧
    Exc.Rel (fun x y => KeyRel T x.1 y.1 ∧ KeyRel W x.2 y.2) (p s state dt).2 (p' s' state' dt).2

/-- Related memories of an AdamsBashforth. -/
def ABPair (T : String → V → U → Prop) (x : ABOver V) (y : ABOver U) : Prop :=
  x.order = y.order ∧ x.timestep = y.timestep ∧ List.Forall₂ (KeyRel T) x.hist y.hist

/-- Related old states of a Leapfrog. -/
def OldPair (θ : Int → Int → Prop) (S : String → V → U → Prop) : Option (EState V) → Option (EState U) → Prop
  | none, none => True
  | some s, some s' => PairRel θ S s s'
  | _, _ => False

/-- Related memories of a Leapfrog. -/
def LFPair (θ : Int → Int → Prop) (S : String → V → U → Prop) (x : LFOver V) (y : LFOver U) : Prop :=
  x.strength = y.strength ∧ x.alpha = y.alpha ∧ x.timestep = y.timestep ∧ OldPair θ S x.old y.old

/-- Related results of a time stepper: diagnostics and new state, or the same exception. -/
def OutPair (θ : Int → Int → Prop) (S : String → V → U → Prop) (W : String → V → U → Prop)
    (x : Except Err (Dict V × EState V)) (y : Except Err (Dict U × EState U)) : Prop :=
  Exc.Rel (fun a b => KeyRel W a.1 b.1 ∧ PairRel θ S a.2 b.2) x y

/-- Related results of a call of a time stepper: its memory, the components' world, the state that
was passed, and what is returned. -/
def CallPair {τ τ' σ σ' : Type} (θ : Int → Int → Prop) (Z : σ → σ' → Prop) (M : τ → τ' → Prop)
    (S : String → V → U → Prop) (W : String → V → U → Prop)
    (r : τ × σ × EState V × Except Err (Dict V × EState V)) (r' : τ' × σ' × EState U × Except Err (Dict U × EState U)) :
    Prop :=
  M r.1 r'.1 ∧ Z r.2.1 r'.2.1 ∧ PairRel θ S r.2.2.1 r'.2.2.1 ∧ OutPair θ S W r.2.2.2 r'.2.2.2

/-- Related ends of runs: memory, world, and state or exception. -/
def RunPair {τ τ' σ σ' : Type} (θ : Int → Int → Prop) (Z : σ → σ' → Prop) (M : τ → τ' → Prop) (S : String → V → U → Prop)
    (r : τ × σ × Except Err (EState V)) (r' : τ' × σ' × Except Err (EState U)) : Prop :=
  M r.1 r'.1 ∧ Z r.2.1 r'.2.1 ∧ Exc.Rel (PairRel θ S) r.2.2 r'.2.2

/-- Related worlds of components in UpdateFrequencyWrappers: the same interval between updates, related outputs in
the cache, related times of the last update. -/
def UpdatingPair {σ σ' : Type} (θ : Int → Int → Prop) (Z : σ → σ' → Prop) (T : String → V → U → Prop) (W : String → V → U → Prop)
    (w : σ × UFW (Dict V × Dict V)) (w' : σ' × UFW (Dict U × Dict U)) : Prop :=
  Z w.1 w'.1 ∧ w.2.delta = w'.2.delta ∧
  Option.Rel (fun x y => KeyRel T x.1 y.1 ∧ KeyRel W x.2 y.2) w.2.cached w'.2.cached ∧ Option.Rel θ w.2.last w'.2.last

end Verif

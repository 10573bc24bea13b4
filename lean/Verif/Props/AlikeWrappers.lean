import Verif.Model.WrappersOver
import Verif.Props.Alike
/-!
# Wrappers keep relations between arrays that the operations keep (C122, C123, C125)
-/

namespace Verif

variable {V U : Type} {A : Arith V} {B : Arith U} {P : String → V → U → Prop} {θ : Int → Int → Prop} {σ σ' : Type}
  {Z : σ → σ' → Prop}

theorem scaledO_pair (hA : Alike A B P P P) (c : Rat) {k : String} {a : V} {b : U} (h : P k a b) :
    P k (scaledO A c a) (scaledO B c b) := by
  unfold scaledO
  rw [hA.attrsS (k := k) h]
  exact hA.setAttrs (k := k) (hA.smulS (k := k) h c) _

theorem scaleInputsO_pair (hA : Alike A B P P P) (f : Dict Rat) {y : EState V} {y' : EState U}
    (hy : PairRel θ P y y') (ks : List String) {out : EState V} {out' : EState U}
    (ho : PairRel θ P out out') :
    Exc.Rel (PairRel θ P) (scaleInputsO A f y ks out) (scaleInputsO B f y' ks out') := by
  induction ks generalizing out out' with
  | nil => exact ho
  | cons k ks ih =>
    unfold scaleInputsO
    rcases KeyRel.get? hy k with ⟨h1, h2⟩ | ⟨v, w, h1, h2, hr⟩
    · rw [h1, h2]; rfl
    · rw [h1, h2]
      dsimp only
      cases f.get? k with
      | none => exact ih (KeyRel.set ho k hr)
      | some c =>
        cases v <;> cases w
        · exact ih (KeyRel.set ho k (scaledO_pair hA c hr))
        · exact hr.elim
        · exact hr.elim
        · rfl

theorem scaleOutputsO_pair (hA : Alike A B P P P) (f : Dict Rat) {d : Dict V} {d' : Dict U}
    (hd : KeyRel P d d') : Exc.Rel (KeyRel P) (scaleOutputsO A f d) (scaleOutputsO B f d') := by
  induction f generalizing d d' with
  | nil => exact hd
  | cons kc f ih =>
    obtain ⟨k, c⟩ := kc
    unfold scaleOutputsO
    rcases KeyRel.get? hd k with ⟨h1, h2⟩ | ⟨v, w, h1, h2, hr⟩
    · rw [h1, h2]; rfl
    · rw [h1, h2]
      exact ih (KeyRel.set hd k (scaledO_pair hA c hr))

/-- **ScalingWrapper keeps the relation** if the wrapped component does. -/
theorem scaling_pair (hA : Alike A B P P P) {p : ProgOver σ V} {p' : ProgOver σ' U}
    (hp : ProgPair θ Z P P P p p') (w : Scaling) (inKeys : List String) :
    ProgPair θ Z P P P (scalingO A w inKeys p) (scalingO B w inKeys p') := by
  intro s s' y y' dt hz hy
  unfold scalingO
  have h := scaleInputsO_pair hA w.input hy inKeys (timeEntryO_pair hy)
  revert h
  generalize scaleInputsO A w.input y inKeys (timeEntryO y) = x
  generalize scaleInputsO B w.input y' inKeys (timeEntryO y') = x'
  intro h
  cases x with
  | error e =>
    cases x' with
    | error e' => exact ⟨hz, h⟩
    | ok _ => exact h.elim
  | ok x =>
    cases x' with
    | error e' => exact h.elim
    | ok x' =>
      obtain ⟨h1, h2⟩ := hp s s' x x' dt hz h
      refine ⟨h1, Exc.Rel.bind h2 (fun r r' hr => ?_)⟩
      refine Exc.Rel.bind (scaleOutputsO_pair hA w.tendency hr.1) (fun t t' ht => ?_)
      refine Exc.Rel.bind (scaleOutputsO_pair hA w.diagnostic hr.2) (fun d d' hd => ?_)
      exact ⟨ht, hd⟩

/-- Steppers that, in related worlds and on related states, leave related worlds and return related diagnostics and
new states, or raise the same exception. -/
def StepperPair (θ : Int → Int → Prop) (Z : σ → σ' → Prop) (P : String → V → U → Prop) (f : StepOver σ V) (f' : StepOver σ' U) : Prop :=
  ∀ s s' y y' dt, Z s s' → PairRel θ P y y' →
    Z (f s y dt).1 (f' s' y' dt).1 ∧ OutPair θ P P (f s y dt).2 (f' s' y' dt).2

theorem differenceLoopO_pair (hA : Alike A B P P P) (outProps : PropDict) {y : EState V}
    {y' : EState U} (hy : PairRel θ P y y') (dt : Int) {n : EState V} {n' : EState U}
    (hn : PairRel θ P n n') {out : Dict V} {out' : Dict U} (ho : KeyRel P out out') :
    Exc.Rel (KeyRel P) (differenceLoopO A outProps y dt n out) (differenceLoopO B outProps y' dt n' out') := by
  induction hn generalizing out out' with
  | nil => exact ho
  | cons hab hl ih =>
    rename_i a b l l'
    obtain ⟨k, va⟩ := a
    obtain ⟨kb, vb⟩ := b
    obtain ⟨hk, hv⟩ := hab
    simp only at hk hv
    subst hk
    cases va <;> cases vb
    · unfold differenceLoopO
      by_cases hq : k ∈ outProps.keys
      · rw [if_pos hq, if_pos hq]
        refine Exc.Rel.bind (P := P k) ?_ (fun t t' ht => ih (KeyRel.set ho k ht))
        unfold differencedTendencyO
        rw [KeyRel.keys hy]
        refine Exc.Rel.bind (Exc.Rel.of_eq rfl) (fun _ _ _ => ?_)
        refine Exc.Rel.bind (PairRel.da hy k) (fun x x' hx => ?_)
        have hv : P k _ _ := hv
        rw [hA.attrsS (k := k) hv]
        refine Exc.Rel.bind (Exc.Rel.of_eq rfl) (fun u u' hu => ?_)
        subst hu
        refine Exc.Rel.bind (hA.toUnitsS (k := k) hx u) (fun x x' hx => ?_)
        refine Exc.Rel.bind (hA.subSS (k := k) hv hx) (fun d d' hd => ?_)
        refine Exc.Rel.bind (Exc.Rel.of_eq rfl) (fun q q' hq => ?_)
        subst hq
        refine Exc.Rel.bind (Exc.Rel.of_eq rfl) (fun v v' hv => ?_)
        subst hv
        exact hA.toUnitsT (k := k) (hA.setAttrs (k := k) (hA.divide (k := k) hd _) _) _
      · rw [if_neg hq, if_neg hq]
        exact ih ho
    · exact hv.elim
    · exact hv.elim
    · unfold differenceLoopO
      by_cases hq : k ≠ "time"
      · rw [if_pos hq, if_pos hq]; rfl
      · rw [if_neg hq, if_neg hq]; exact ih ho

/-- **TimeDifferencingWrapper keeps the relation** if the wrapped Stepper does. -/
theorem differencing_pair (hA : Alike A B P P P) (outProps : PropDict) {f : StepOver σ V}
    {f' : StepOver σ' U} (hf : StepperPair θ Z P f f') :
    ProgPair θ Z P P P (differencingO A outProps f) (differencingO B outProps f') := by
  intro s s' y y' dt hz hy
  obtain ⟨h1, h2⟩ := hf s s' y y' dt hz hy
  refine ⟨h1, Exc.Rel.bind h2 (fun r r' hr => ?_)⟩
  refine Exc.Rel.bind (differenceLoopO_pair hA outProps hy dt hr.2 List.Forall₂.nil) (fun t t' ht => ?_)
  exact ⟨ht, hr.1⟩

end Verif

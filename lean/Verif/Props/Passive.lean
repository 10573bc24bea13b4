import Verif.Spec.Passive
import Verif.Props.Confined
/-!
# C125: passive quantities influence nothing
-/

namespace Verif

section
variable {F : Type} {Q : String → Prop}

theorem agreeOff_weaken {B B' : (String → Nat) → Prop} (h : ∀ ix, B ix → B' ix) {a b : ElemArray F} (hab : AgreeOff B a b) :
    AgreeOff B' a b :=
  ⟨hab.dims, hab.shape, hab.attrs, fun ix hix hB => hab.val ix hix fun hB' => hB (h ix hB')⟩

/-- The operations on arrays take what they compute for a quantity from arrays of that quantity. -/
theorem passive_alike (R : Registry) (E : Elem F) (hQ : ∀ k inst, Q k → Q (tendencyName k inst)) :
    Alike (elemArith R E) (elemArith R E) (fun k => AgreeOff fun _ => Q k) (fun k => AgreeOff fun _ => Q k)
      (fun k => AgreeOff fun _ => Q k) where
  attrsS h := h.attrs
  attrsT h := h.attrs
  container _ := rfl
  toUnitsS h u := agreeOff_toUnits R E h u
  toUnitsT h u := agreeOff_toUnits R E h u
  smulS h _ := agreeOff_map _ _ h
  smulT h _ := agreeOff_map _ _ h
  setAttrs h _ := ⟨h.dims, h.shape, rfl, h.val⟩
  divide h _ := agreeOff_map _ _ h
  addSS h h' := agreeOff_binop _ h h'
  addST h h' := agreeOff_binop _ h h'
  addTT h h' := agreeOff_binop _ h h'
  subSS h h' := agreeOff_binop _ h h'
  subTT h h' := agreeOff_binop _ h h'
  iadd {k _ _ _ _} h h' := (elem_alike R E fun _ => Q k).iadd (k := k) h h'
  diag h inst := agreeOff_weaken (fun _ h => hQ _ inst h) h

variable {σ : Type} {Z : σ → σ → Prop} (R : Registry) (E : Elem F) (hQ : ∀ k inst, Q k → Q (tendencyName k inst))
include hQ

/-- **Quantities are passive for a composite** if they are for its components. -/
theorem composite_passive {cs : List (ProgOver σ (ElemArray F))} (h : ∀ p ∈ cs, PassiveFor Q Z p) :
    PassiveFor Q Z (compositeO (elemArith R E) cs) :=
  composite_pair (passive_alike R E hQ) (List.forall₂_same.2 h)

omit hQ in
/-- **Quantities are passive for a component in an UpdateFrequencyWrapper** if they are for the component. -/
theorem updating_passive {p : ProgOver σ (ElemArray F)} (hp : PassiveFor Q Z p) (implicit : Bool) :
    PassiveFor Q (UpdatingPair Eq Z (fun k => AgreeOff fun _ => Q k) (fun k => AgreeOff fun _ => Q k)) (updatingO implicit p) :=
  updating_pair (fun t t' u u' h h' => by rw [h, h']) hp implicit

/-- **Runs with a passive quantity**: fresh AdamsBashforth (any order), SSPRungeKutta and Leapfrog steppers, started
from states that agree in all other quantities, end after any number of steps with states and memories that agree in all other
quantities, or both with the same exception, if the quantity is passive for the components and for what
happens between the calls. -/
theorem main_loops_passive {p : ProgOver σ (ElemArray F)} (hp : PassiveFor Q Z p) (inProps outProps : PropDict) (inst : String)
    (tid : Bool) (between : Dict (ElemArray F) → EState (ElemArray F) → EState (ElemArray F))
    (hb : ∀ d d' y y', KeyRel (fun k => AgreeOff fun _ => Q k) d d' → SameBut Q y y' → SameBut Q (between d y) (between d' y'))
    (dt : Int) (n : Nat) {s s' : σ} (hz : Z s s') {y y' : EState (ElemArray F)} (hy : SameBut Q y y') :
    (∀ order, RunPair Eq Z (ABPair fun k => AgreeOff fun _ => Q k) (fun k => AgreeOff fun _ => Q k)
      (runOver (tsCallO (elemArith R E) inProps outProps inst tid (abCallO (elemArith R E) p)) between dt n
        { order := order } s y)
      (runOver (tsCallO (elemArith R E) inProps outProps inst tid (abCallO (elemArith R E) p)) between dt n
        { order := order } s' y')) ∧
    (∀ three, RunPair Eq Z (ABPair fun k => AgreeOff fun _ => Q k) (fun k => AgreeOff fun _ => Q k)
      (runOver (tsCallO (elemArith R E) inProps outProps inst tid (sspCallO (elemArith R E) p three)) between dt n
        { order := 1 } s y)
      (runOver (tsCallO (elemArith R E) inProps outProps inst tid (sspCallO (elemArith R E) p three)) between dt n
        { order := 1 } s' y')) ∧
    (∀ strength alpha, RunPair Eq Z (LFPair Eq fun k => AgreeOff fun _ => Q k) (fun k => AgreeOff fun _ => Q k)
      (runOver (tsCallO (elemArith R E) inProps outProps inst tid (LFOver.call (elemArith R E) p)) between dt n
        { strength := strength, alpha := alpha } s y)
      (runOver (tsCallO (elemArith R E) inProps outProps inst tid (LFOver.call (elemArith R E) p)) between dt n
        { strength := strength, alpha := alpha } s' y')) := by
  have hA := passive_alike R E hQ
  refine ⟨fun order => run_pair (fun _ _ _ _ _ _ dt h hz h' => ?_) hb dt n (abPair_refl _ order) hz hy,
    fun three => run_pair (fun _ _ _ _ _ _ dt h hz h' => ?_) hb dt n (abPair_refl _ 1) hz hy,
    fun strength alpha => run_pair (fun _ _ _ _ _ _ dt h hz h' => ?_) hb dt n (lfPair_refl _ strength alpha) hz hy⟩
  · obtain ⟨h1, h2, h3⟩ := ab_pair hA hp h hz h' dt
    exact stepper_pair hA _ inProps outProps inst tid dt ⟨h1, h2, h', h3⟩
  · obtain ⟨h1, h2, h3⟩ := ssprk_pair hA hp three h hz h' dt
    exact stepper_pair hA _ inProps outProps inst tid dt ⟨h1, h2, h', h3⟩
  · exact stepper_pair hA _ inProps outProps inst tid dt (leapfrog_pair hA hp h hz h' dt)

omit hQ in
/-- What this says of a quantity that is not passive: it has the same values. -/
theorem sameBut_value {y y' : EState (ElemArray F)} (h : SameBut Q y y') {k : String} (hk : ¬ Q k) : SameValue k y y' := by
  intro a ha
  have hd := PairRel.da h k
  rw [ha] at hd
  cases hb : EState.da y' k with
  | error e => rw [hb] at hd; exact hd.elim
  | ok b =>
    rw [hb] at hd
    exact ⟨b, rfl, hd.dims, hd.shape, hd.attrs, fun ix hix => hd.val ix hix hk⟩

end

/-! ## Non-vacuity -/

/-- The tendency of `q` is a function of the value of `from'`. -/
def drives {F σ : Type} (from' q : String) (f : F → F) (units : String) : ProgOver σ (ElemArray F) := fun s state _ =>
  (s, EState.da state from' >>= fun a => .ok ([(q, { a.map f with attrs := [("units", units)] })], []))

/-- What is driven may be passive; a passive quantity may drive passive ones only. -/
theorem drives_passive {F σ : Type} (Q : String → Prop) (from' q : String) (f : F → F) (units : String) (h : Q from' → Q q) :
    PassiveFor Q Eq (drives (σ := σ) from' q f units) := by
  intro s s' y y' dt hz hy
  refine ⟨hz, ?_⟩
  refine Exc.Rel.bind (PairRel.da hy from') (fun a a' ha => ?_)
  exact ⟨List.Forall₂.cons ⟨rfl, agreeOff_weaken (fun _ => h) (agreeOff_map f _ ha)⟩ List.Forall₂.nil, List.Forall₂.nil⟩

namespace Demo

/-- A temperature and a dye. -/
def dyed (dye : Rat) : EState (ElemArray Rat) :=
  [("T", .da { dims := ["x"], shape := [2], get := fun i => if i = [0] then 280 else 290, attrs := [("units", "K")] }),
   ("dye", .da { dims := ["x"], shape := [2], get := fun _ => dye, attrs := [("units", "m")] })]

/-- Names that start with `dye`. -/
def isDye (k : String) : Prop := ∃ r, k = "dye" ++ r

theorem isDye_tendency (k inst : String) (h : isDye k) : isDye (tendencyName k inst) := by
  obtain ⟨r, rfl⟩ := h
  unfold tendencyName
  exact ⟨r ++ "_tendency_from_" ++ inst, by simp only [String.append_assoc]⟩

theorem dye_isDye : isDye "dye" := ⟨"", by decide⟩

/-- The temperature cools, and the dye grows with the temperature. -/
def dyeing : ProgOver Unit (ElemArray Rat) := compositeO (elemArith reg exactElem)
  [drives "T" "T" (fun x => -x / 100) "K s^-1", drives "T" "dye" (fun x => x / 280) "m s^-1"]

theorem dyeing_passive : PassiveFor isDye Eq dyeing :=
  composite_passive reg _ isDye_tendency (by
    intro p hp
    simp only [List.mem_cons, List.not_mem_nil, or_false] at hp
    rcases hp with rfl | rfl
    · exact drives_passive _ _ _ _ _ id
    · exact drives_passive _ _ _ _ _ fun _ => dye_isDye)

theorem dyed_same (x x' : Rat) : SameBut isDye (dyed x) (dyed x') := by
  refine List.Forall₂.cons ⟨rfl, ⟨rfl, rfl, rfl, fun _ _ _ => rfl⟩⟩
    (List.Forall₂.cons ⟨rfl, ⟨rfl, rfl, rfl, fun ix _ h => (h dye_isDye).elim⟩⟩ List.Forall₂.nil)

/-- The temperature of a run does not depend on the dye. -/
example (n : Nat) (x x' : Rat) (out : EState (ElemArray Rat))
    (h : (runOver (tsCallO (elemArith reg exactElem) [] [] "" false (LFOver.call (elemArith reg exactElem) dyeing))
      (fun _ y => y) 1000000 n {} () (dyed x)).2.2 = .ok out) :
    ∃ out', (runOver (tsCallO (elemArith reg exactElem) [] [] "" false (LFOver.call (elemArith reg exactElem) dyeing))
      (fun _ y => y) 1000000 n {} () (dyed x')).2.2 = .ok out' ∧ SameValue "T" out out' := by
  have hr := ((main_loops_passive reg exactElem isDye_tendency dyeing_passive [] [] "" false (fun _ y => y)
    (fun _ _ _ _ _ h => h) 1000000 n (s := ()) rfl (dyed_same x x')).2.2 (1 / 20) (1 / 2)).2.2
  rw [h] at hr
  cases h' : (runOver (tsCallO (elemArith reg exactElem) [] [] "" false (LFOver.call (elemArith reg exactElem) dyeing))
      (fun _ y => y) 1000000 n {} () (dyed x')).2.2 with
  | error e => rw [h'] at hr; exact hr.elim
  | ok out' =>
    rw [h'] at hr
    exact ⟨out', rfl, sameBut_value hr (by rintro ⟨r, hr⟩; simpa using congrArg String.toList hr)⟩

/-- The runs do not raise, and the dye is different: two steps. -/
example : Exc.test (runOver (tsCallO (elemArith reg exactElem) [] [] "" false (LFOver.call (elemArith reg exactElem) dyeing))
      (fun _ y => y) 1000000 2 {} () (dyed 0)).2.2 (fun y => Exc.test (EState.da y "dye") fun a => decide (a.at' (fun _ => 0) ≠ 0)) = true := by
  decide +kernel

/-- A dye that heats is not passive. -/
theorem heating_not_passive : ¬ PassiveFor isDye Eq (drives (σ := Unit) "dye" "T" (fun x : Rat => x) "K s^-1") := by
  intro h
  have h1 := (h () () (dyed 0) (dyed 1) 0 rfl (dyed_same 0 1)).2
  obtain ⟨h2, -⟩ := (show _ ∧ _ from h1)
  cases h2 with
  | cons hab _ =>
    have hv := hab.2.val (fun _ => 0) (by
      intro d hd
      simp only [ElemArray.map, List.mem_singleton] at hd
      subst hd
      decide) (by rintro ⟨r, hr⟩; simpa using congrArg String.toList hr)
    exact absurd hv (by decide)

end Demo
end Verif

import Verif.Spec.Commutes
import Verif.Props.SteppersOver
import Verif.Props.SteadyRuns
import Verif.Model.Composite
import Verif.Lemmas.DataArray
import Verif.Props.Coords
import Verif.Props.Layout
/-!
# C91: time steppers and composites work point by point

Whatever relation between arrays is respected by xarray's arithmetic is respected by
composites, time steppers and runs; in particular axes in another order, renamed
dimensions, and one column of a state.
-/

namespace Verif

/-- A relation between arrays respected by operations on single values and by binary
operations. -/
structure Respected (Q : DataArray → DataArray → Prop) : Prop where
  attrs : ∀ {a b}, Q a b → a.attrs = b.attrs
  map : ∀ {a b}, Q a b → ∀ (f : Rat → Rat) m, Q { a with arr := a.arr.map f, attrs := m } { b with arr := b.arr.map f, attrs := m }
  setAttrs : ∀ {a b}, Q a b → ∀ m, Q { a with attrs := m } { b with attrs := m }
  binop : ∀ {a b a' b'}, Q a b → Q a' b' → ∀ f, Exc.Rel Q (DataArray.binop f a a') (DataArray.binop f b b')
  subset : ∀ {a b a' b'}, Q a b → Q a' b' → ((∀ d ∈ a'.dims, d ∈ a.dims) ↔ ∀ d ∈ b'.dims, d ∈ b.dims)

section
variable {R : Registry} {Q : DataArray → DataArray → Prop}

theorem Respected.toUnits (hQ : Respected Q) {a b : DataArray} (h : Q a b) (u : String) :
    Exc.Rel Q (a.toUnits R u) (b.toUnits R u) := by
  unfold DataArray.toUnits DataArray.dataArrayToUnits
  rw [hQ.attrs h]
  cases b.attrs.get? "units" with
  | none => rfl
  | some own =>
    dsimp only
    cases R.unit own with
    | error e => cases e <;> rfl
    | ok x =>
      cases R.unit u with
      | error e => cases e <;> rfl
      | ok y =>
        simp only [Exc.ok_bind]
        by_cases h1 : x.sameQty y = true
        · simp only [if_pos h1]; exact h
        · simp only [if_neg h1]
          by_cases h2 : x.dim = y.dim
          · simp only [if_pos h2]; exact hQ.map h _ _
          · simp only [if_neg h2]; rfl

theorem Respected.smul (hQ : Respected Q) {a b : DataArray} (h : Q a b) (c : Rat) : Q (a.smul c) (b.smul c) :=
  hQ.map h _ _

theorem Respected.add (hQ : Respected Q) {a b a' b' : DataArray} (h : Q a b) (h' : Q a' b') :
    Exc.Rel Q (a.add a') (b.add b') := by
  unfold DataArray.add
  rw [hQ.attrs h]
  exact Exc.Rel.bind (hQ.binop h h' _) fun x y hxy => hQ.setAttrs hxy _

theorem Respected.sub (hQ : Respected Q) {a b a' b' : DataArray} (h : Q a b) (h' : Q a' b') :
    Exc.Rel Q (a.sub a') (b.sub b') := by
  unfold DataArray.sub
  rw [hQ.attrs h]
  exact Exc.Rel.bind (hQ.binop h h' _) fun x y hxy => hQ.setAttrs hxy _

theorem Respected.iadd (hQ : Respected Q) {a b a' b' : DataArray} (h : Q a b) (h' : Q a' b') :
    Exc.Rel Q (a.iadd a') (b.iadd b') := by
  unfold DataArray.iadd
  simp only [hQ.subset h h']
  split
  · exact hQ.add h h'
  · rfl

theorem Respected.stand (hQ : Respected Q) :
    StandFor R (dataArrayArith R) (fun _ => Q) (fun _ => Q) Q where
  attrsS h := hQ.attrs h
  attrsT h := hQ.attrs h
  container _ := rfl
  toUnitsS h u := hQ.toUnits h u
  toUnitsT h u := hQ.toUnits h u
  smulS h c := hQ.smul h c
  smulT h c := hQ.smul h c
  setAttrs h m := hQ.setAttrs h m
  divide h _ := hQ.map h _ _
  addSS h h' := hQ.add h h'
  addST h h' := hQ.add h h'
  addTT h h' := hQ.add h h'
  subSS h h' := hQ.sub h h'
  subTT h h' := hQ.sub h h'
  iadd h h' := hQ.iadd h h'
  diag h := h

/-! ## From states to states of entries and back -/

def toEntry : Val → Entry DataArray
  | .da a => .da a
  | .time t => .time t

def fromEntry : Entry DataArray → Val
  | .da a => .da a
  | .time t => .time t

def entriesState (s : State) : EState DataArray := Dict.mapVal toEntry s

/-- Components applied to states of entries. -/
def onEntries {σ : Type} (p : Prog σ) : ProgOver σ DataArray := fun s state dt => p s (Dict.mapVal fromEntry state) dt

theorem entriesState_rel {s s' : State} (h : StatesRel Q s s') : StateRel (fun _ => Q) (entriesState s) s' := by
  induction h with
  | nil => exact List.Forall₂.nil
  | cons hab hrest ih =>
    rename_i a b l l'
    obtain ⟨ka, va⟩ := a
    obtain ⟨kb, vb⟩ := b
    refine List.Forall₂.cons ⟨hab.1, ?_⟩ ih
    have h2 := hab.2
    cases va <;> cases vb <;> exact h2

theorem entriesState_eq (s : State) : StateRel (fun _ v a => v = a) (entriesState s) s := by
  induction s with
  | nil => exact List.Forall₂.nil
  | cons kv s ih =>
    obtain ⟨k, v⟩ := kv
    refine List.Forall₂.cons ⟨rfl, ?_⟩ ih
    cases v <;> rfl

theorem entries_state {x : EState DataArray} {s : State} (h : StateRel (fun _ v a => v = a) x s) :
    Dict.mapVal fromEntry x = s := by
  induction h with
  | nil => rfl
  | cons hab hrest ih =>
    rename_i a b l l'
    obtain ⟨ka, va⟩ := a
    obtain ⟨kb, vb⟩ := b
    obtain ⟨hk, hv⟩ := hab
    simp only at hk hv
    subst hk
    show (ka, fromEntry va) :: Dict.mapVal fromEntry l = _
    rw [ih]
    cases va <;> cases vb <;> first | exact hv.elim | (have hv : _ = _ := hv; subst hv; rfl)

theorem from_rel {x : EState DataArray} {s : State} (h : StateRel (fun _ => Q) x s) :
    StatesRel Q (Dict.mapVal fromEntry x) s := by
  induction h with
  | nil => exact List.Forall₂.nil
  | cons hab hrest ih =>
    rename_i a b l l'
    obtain ⟨ka, va⟩ := a
    obtain ⟨kb, vb⟩ := b
    refine List.Forall₂.cons ⟨hab.1, ?_⟩ ih
    have h2 := hab.2
    cases va <;> cases vb <;> exact h2

theorem through_entries {x : EState DataArray} {s s' : State} (h : StateRel (fun _ v a => v = a) x s)
    (h' : StateRel (fun _ => Q) x s') : StatesRel Q s s' := by
  rw [← entries_state h]
  exact from_rel h'

theorem keyRel_eq {d e : Dict DataArray} (h : KeyRel (fun _ v a => v = a) d e) : d = e := by
  induction h with
  | nil => rfl
  | cons hab _ ih => rw [Prod.ext hab.1 hab.2, ih]

theorem keyRel_refl (d : Dict DataArray) : KeyRel (fun _ v a => v = a) d d := by
  induction d with
  | nil => exact List.Forall₂.nil
  | cons kv d ih => exact List.Forall₂.cons ⟨rfl, rfl⟩ ih

theorem dictRel_eq {d e : Dict DataArray} (h : DictRel (fun v a => v = a) d e) : d = e := keyRel_eq h

theorem onEntries_eq {σ : Type} (p : Prog σ) :
    ProgRel (fun _ v a => v = a) (fun _ v a => v = a) (fun v a => v = a) (onEntries p) p := by
  intro s state state' dt h
  unfold onEntries
  rw [entries_state h]
  refine ⟨rfl, ?_⟩
  cases (p s state' dt).2 with
  | error e => rfl
  | ok r => exact ⟨keyRel_refl _, keyRel_refl _⟩

theorem onEntries_rel {σ : Type} {p p' : Prog σ} (h : ProgsRel Q p p') :
    ProgRel (fun _ => Q) (fun _ => Q) Q (onEntries p) p' :=
  fun s _ _ dt hs => h s _ _ dt (from_rel hs)

theorem through_step {x : Except Err (Dict DataArray × EState DataArray)} {y y' : Except Err (Dict DataArray × State)}
    (h : StepRel (fun _ v a => v = a) (fun v a => v = a) x y) (h' : StepRel (fun _ => Q) Q x y') :
    Exc.Rel (fun a b => DictRel Q a.1 b.1 ∧ StatesRel Q a.2 b.2) y y' := by
  cases x with
  | error e =>
    cases y with
    | ok b => exact h.elim
    | error f =>
      cases y' with
      | ok b => exact h'.elim
      | error f' => exact (show e = f from h).symm.trans h'
  | ok a =>
    cases y with
    | error e => exact h.elim
    | ok b =>
      cases y' with
      | error e => exact h'.elim
      | ok b' =>
        obtain ⟨h1, h2⟩ := h
        obtain ⟨h3, h4⟩ := h'
        exact ⟨dictRel_eq h1 ▸ h3, through_entries h2 h4⟩

/-- The memory of an AdamsBashforth, as one over entries. -/
def toABO (ab : AB) : ABOver DataArray := { order := ab.order, timestep := ab.timestep, hist := ab.hist }

theorem toABO_eq (ab : AB) : ABOverRel (fun _ v a => v = a) (toABO ab) ab := by
  refine ⟨rfl, rfl, ?_⟩
  unfold toABO
  dsimp only
  generalize ab.hist = l
  induction l with
  | nil => exact List.Forall₂.nil
  | cons d l ih => exact List.Forall₂.cons (keyRel_refl d) ih

theorem toABO_rel {ab ab' : AB} (h : ABsRel Q ab ab') : ABOverRel (fun _ => Q) (toABO ab) ab' := h

theorem through_ab {x : ABOver DataArray} {y y' : AB} (h : ABOverRel (fun _ v a => v = a) x y)
    (h' : ABOverRel (fun _ => Q) x y') : ABsRel Q y y' := by
  obtain ⟨h1, h2, h3⟩ := h
  have : x.hist = y.hist := by
    revert h3
    generalize x.hist = l
    generalize y.hist = m
    intro h3
    induction h3 with
    | nil => rfl
    | cons hab _ ih => rw [keyRel_eq hab, ih]
  exact ⟨h1.symm.trans h'.1, h2.symm.trans h'.2.1, this ▸ h'.2.2⟩

/-- The memory of a Leapfrog, as one over entries. -/
def toLFO (lf : LF) : LFOver DataArray :=
  { strength := lf.strength, alpha := lf.alpha, timestep := lf.timestep, old := lf.old.map entriesState }

theorem toLFO_eq (lf : LF) : LFOverRel (fun _ v a => v = a) (toLFO lf) lf := by
  refine ⟨rfl, rfl, rfl, ?_⟩
  unfold toLFO
  dsimp only
  cases lf.old with
  | none => trivial
  | some s => exact entriesState_eq s

theorem toLFO_rel {lf lf' : LF} (h : LFsRel Q lf lf') : LFOverRel (fun _ => Q) (toLFO lf) lf' := by
  obtain ⟨h1, h2, h3, h4⟩ := h
  refine ⟨h1, h2, h3, ?_⟩
  unfold toLFO
  dsimp only
  revert h4
  cases lf.old <;> cases lf'.old <;> intro h4
  · trivial
  · exact h4.elim
  · exact h4.elim
  · exact entriesState_rel h4

theorem through_lf {x : LFOver DataArray} {y y' : LF} (h : LFOverRel (fun _ v a => v = a) x y)
    (h' : LFOverRel (fun _ => Q) x y') : LFsRel Q y y' := by
  obtain ⟨h1, h2, h3, h4⟩ := h
  obtain ⟨h1', h2', h3', h4'⟩ := h'
  refine ⟨h1.symm.trans h1', h2.symm.trans h2', h3.symm.trans h3', ?_⟩
  revert h4 h4'
  cases x.old <;> cases y.old <;> cases y'.old <;> intro h4 h4' <;>
    first | trivial | exact h4.elim | exact h4'.elim | exact through_entries h4 h4'

/-! ## Time steppers -/

/-- Calls over entries that agree with `call` and correspond to `call'` make `call` and
`call'` correspond. -/
theorem through_call {σ τ τE : Type} {M : τ → τ → Prop} (hQ : Respected Q) (ME : τE → τ → Prop) (MQ : τE → τ → Prop)
    (hM : ∀ x y y', ME x y → MQ x y' → M y y') (inProps outProps : PropDict) (inst : String) (tid : Bool)
    {callE : τE → σ → EState DataArray → Int → τE × σ × EState DataArray × Except Err (Dict DataArray × EState DataArray)}
    {call call' : τ → σ → State → Int → τ × σ × State × Except Err (Dict DataArray × State)} {xE : τE} {x x' : τ} {s : σ}
    {stateE : EState DataArray} {state state' : State} {dt : Int}
    (hE : ME (callE xE s stateE dt).1 (call x s state dt).1 ∧ (callE xE s stateE dt).2.1 = (call x s state dt).2.1 ∧
      StateRel (fun _ v a => v = a) (callE xE s stateE dt).2.2.1 (call x s state dt).2.2.1 ∧
      StepRel (fun _ v a => v = a) (fun v a => v = a) (callE xE s stateE dt).2.2.2 (call x s state dt).2.2.2)
    (hC : MQ (callE xE s stateE dt).1 (call' x' s state' dt).1 ∧ (callE xE s stateE dt).2.1 = (call' x' s state' dt).2.1 ∧
      StateRel (fun _ => Q) (callE xE s stateE dt).2.2.1 (call' x' s state' dt).2.2.1 ∧
      StepRel (fun _ => Q) Q (callE xE s stateE dt).2.2.2 (call' x' s state' dt).2.2.2) :
    CallRel M Q (tsCall R inProps outProps inst tid call x s state dt)
      (tsCall R inProps outProps inst tid call' x' s state' dt) := by
  obtain ⟨a1, a2, a3, a4⟩ := stepper_over (dataArray_stand R) ME inProps outProps inst tid s dt hE
  obtain ⟨b1, b2, b3, b4⟩ := stepper_over (hQ.stand (R := R)) MQ inProps outProps inst tid s dt hC
  exact ⟨hM _ _ _ a1 b1, a2.symm.trans b2, through_entries a3 b3, through_step a4 b4⟩

/-- **C91, AdamsBashforth.**  Stepping corresponding states gives corresponding results. -/
theorem ab_commutes (hQ : Respected Q) {σ : Type} {p p' : Prog σ} (hp : ProgsRel Q p p') (inProps outProps : PropDict)
    (inst : String) (tid : Bool) {ab ab' : AB} (hab : ABsRel Q ab ab') (s : σ) {state state' : State}
    (hs : StatesRel Q state state') (dt : Int) :
    CallRel (ABsRel Q) Q (tsCall R inProps outProps inst tid (abCall R p) ab s state dt)
      (tsCall R inProps outProps inst tid (abCall R p') ab' s state' dt) := by
  obtain ⟨a1, a2, a3⟩ := ab_over (dataArray_stand R) (onEntries_eq p) (toABO_eq ab) s (entriesState_eq state) dt
  obtain ⟨b1, b2, b3⟩ := ab_over (hQ.stand (R := R)) (onEntries_rel hp) (toABO_rel hab) s (entriesState_rel hs) dt
  exact through_call hQ (ABOverRel fun _ v a => v = a) (ABOverRel fun _ => Q) (fun _ _ _ => through_ab) inProps outProps inst
    tid (callE := abCallO (dataArrayArith R) (onEntries p)) ⟨a1, a2, entriesState_eq state, a3⟩
    ⟨b1, b2, entriesState_rel hs, b3⟩

/-- **C91, SSPRungeKutta.** -/
theorem ssprk_commutes (hQ : Respected Q) {σ : Type} {p p' : Prog σ} (hp : ProgsRel Q p p') (three : Bool)
    (inProps outProps : PropDict)
    (inst : String) (tid : Bool) {ab ab' : AB} (hab : ABsRel Q ab ab') (s : σ) {state state' : State}
    (hs : StatesRel Q state state') (dt : Int) :
    CallRel (ABsRel Q) Q (tsCall R inProps outProps inst tid (sspCall R p three) ab s state dt)
      (tsCall R inProps outProps inst tid (sspCall R p' three) ab' s state' dt) := by
  obtain ⟨a1, a2, a3⟩ := ssprk_over (dataArray_stand R) (onEntries_eq p) three (toABO_eq ab) s (entriesState_eq state) dt
  obtain ⟨b1, b2, b3⟩ := ssprk_over (hQ.stand (R := R)) (onEntries_rel hp) three (toABO_rel hab) s (entriesState_rel hs) dt
  exact through_call hQ (ABOverRel fun _ v a => v = a) (ABOverRel fun _ => Q) (fun _ _ _ => through_ab) inProps outProps inst
    tid (callE := sspCallO (dataArrayArith R) (onEntries p) three) ⟨a1, a2, entriesState_eq state, a3⟩
    ⟨b1, b2, entriesState_rel hs, b3⟩

/-- **C91, Leapfrog.** -/
theorem leapfrog_commutes (hQ : Respected Q) {σ : Type} {p p' : Prog σ} (hp : ProgsRel Q p p')
    (inProps outProps : PropDict)
    (inst : String) (tid : Bool) {lf lf' : LF} (hlf : LFsRel Q lf lf') (s : σ) {state state' : State}
    (hs : StatesRel Q state state') (dt : Int) :
    CallRel (LFsRel Q) Q (tsCall R inProps outProps inst tid (LF.call R p) lf s state dt)
      (tsCall R inProps outProps inst tid (LF.call R p') lf' s state' dt) :=
  through_call hQ (LFOverRel fun _ v a => v = a) (LFOverRel fun _ => Q) (fun _ _ _ => through_lf) inProps outProps inst
    tid (callE := LFOver.call (dataArrayArith R) (onEntries p))
    (leapfrog_over (dataArray_stand R) (onEntries_eq p) (toLFO_eq lf) s (entriesState_eq state) dt)
    (leapfrog_over (hQ.stand (R := R)) (onEntries_rel hp) (toLFO_rel hlf) s (entriesState_rel hs) dt)

/-- **C91, whole runs** of any of these steppers. -/
theorem run_commutes {σ τ : Type} {M : τ → τ → Prop}
    {call call' : τ → σ → State → Int → τ × σ × State × Except Err (Dict DataArray × State)} {dt : Int}
    (hcall : ∀ x x' s state state', M x x' → StatesRel Q state state' →
      CallRel M Q (call x s state dt) (call' x' s state' dt))
    (n : Nat) {x x' : τ} (s : σ) {state state' : State} (hM : M x x') (hs : StatesRel Q state state') :
    RunRel M Q (runSteps call dt n x s state) (runSteps call' dt n x' s state') := by
  induction n generalizing x x' s state state' with
  | zero => exact ⟨hM, rfl, hs⟩
  | succ n ih =>
    have h := hcall x x' s state state' hM hs
    unfold runSteps
    revert h
    generalize call x s state dt = r
    generalize call' x' s state' dt = r'
    intro h
    obtain ⟨r1, r2, r3, r4⟩ := r
    obtain ⟨r1', r2', r3', r4'⟩ := r'
    obtain ⟨h1, h2, h3, h4⟩ := h
    simp only at h1 h2 h3 h4
    subst h2
    cases r4 with
    | error e =>
      cases r4' with
      | error e' => trivial
      | ok b => exact h4.elim
    | ok o =>
      cases r4' with
      | error e' => exact h4.elim
      | ok o' => exact ih r2 h1 h4.2

/-! ## Composites -/

theorem addInto_commutes (hQ : Respected Q) {d d' t t' : Dict DataArray} (hd : DictRel Q d d') (ht : DictRel Q t t') :
    Exc.Rel (DictRel Q) (addInto R d t) (addInto R d' t') := by
  induction hd generalizing t t' with
  | nil => exact ht
  | cons hab hrest ih =>
    rename_i a b l l'
    obtain ⟨ka, va⟩ := a
    obtain ⟨kb, vb⟩ := b
    obtain ⟨hk, hv⟩ := hab
    simp only at hk hv
    subst hk
    unfold addInto
    rcases ht.get? ka with ⟨h1, h2⟩ | ⟨w, w', h1, h2, hw⟩
    · rw [h1, h2]; exact ih (ht.set ka hv)
    · rw [h1, h2]
      dsimp only
      rw [hQ.attrs hw, hQ.attrs hv]
      cases w'.attrs.get? "units" with
      | none => rfl
      | some u =>
        cases vb.attrs.get? "units" with
        | none => rfl
        | some u' =>
          dsimp only
          exact Exc.Rel.bind (hQ.toUnits hv u) fun x y hxy =>
            Exc.Rel.bind (hQ.add hw hxy) fun x y hxy => ih (ht.set ka hxy)

theorem compositeLoop_commutes (hQ : Respected Q) {σ : Type} {fs fs' : List (σ → σ × Except Err TendOut)}
    (hf : List.Forall₂ (fun f f' => ∀ s, (f s).1 = (f' s).1 ∧
      Exc.Rel (fun x y => DictRel Q x.1 y.1 ∧ DictRel Q x.2 y.2) (f s).2 (f' s).2) fs fs')
    (s : σ) {t t' d d' : Dict DataArray} (ht : DictRel Q t t') (hd : DictRel Q d d') :
    (compositeLoop R fs s t d).1 = (compositeLoop R fs' s t' d').1 ∧
    Exc.Rel (fun x y => DictRel Q x.1 y.1 ∧ DictRel Q x.2 y.2) (compositeLoop R fs s t d).2
      (compositeLoop R fs' s t' d').2 := by
  induction hf generalizing s t t' d d' with
  | nil => exact ⟨rfl, ht, hd⟩
  | cons hff hrest ih =>
    rename_i f f' l l'
    unfold compositeLoop
    have h := hff s
    revert h
    generalize f s = r
    generalize f' s = r'
    intro h
    obtain ⟨r1, r2⟩ := r
    obtain ⟨r1', r2'⟩ := r'
    obtain ⟨h1, h2⟩ := h
    simp only at h1 h2
    subst h1
    cases r2 with
    | error e =>
      cases r2' with
      | error e' => exact ⟨rfl, h2⟩
      | ok b => exact h2.elim
    | ok o =>
      cases r2' with
      | error e' => exact h2.elim
      | ok o' =>
        dsimp only
        have h3 := addInto_commutes (R := R) hQ h2.1 ht
        revert h3
        generalize addInto R o.1 t = z
        generalize addInto R o'.1 t' = z'
        intro h3
        cases z with
        | error e =>
          cases z' with
          | error e' => exact ⟨rfl, h3⟩
          | ok b => exact h3.elim
        | ok u =>
          cases z' with
          | error e' => exact h3.elim
          | ok u' => exact ih r1 h3 (hd.update h2.2)

/-- **C91, composites.**  If the components of a composite work point by point, so does
the composite. -/
theorem composite_commutes (hQ : Respected Q) {σ : Type} {cs cs' : List (Comp σ)}
    (hc : List.Forall₂ (fun c c' => ProgsRel Q (fun s state dt => implicitCall c state dt s)
      (fun s state dt => implicitCall c' state dt s)) cs cs') :
    ProgsRel Q (fun s state dt => callImplicitComposite R cs s state dt)
      (fun s state dt => callImplicitComposite R cs' s state dt) := by
  intro s state state' dt hs
  unfold callImplicitComposite
  refine compositeLoop_commutes hQ ?_ s List.Forall₂.nil List.Forall₂.nil
  rw [List.forall₂_map_left_iff, List.forall₂_map_right_iff]
  exact hc.imp fun c c' h x => h x state state' dt hs

end

/-! ## Axes in another order -/

theorem binop_attrs {f : Rat → Rat → Rat} {a b r : DataArray} (h : DataArray.binop f a b = .ok r) : r.attrs = [] := by
  unfold DataArray.binop at h
  simp only at h
  split at h
  · cases h; rfl
  · cases h

theorem map_len (a : DataArray) (f : Rat → Rat) (m : Dict String) (d : String) :
    ({ a with arr := a.arr.map f, attrs := m } : DataArray).len d = a.len d := rfl

/-- **C91, axes in another order** are respected by xarray's arithmetic. -/
theorem reordered_respected : Respected Reordered where
  attrs h := h.2.2.attrs
  map h f m := ⟨h.1, h.2.1, h.2.2.dims, h.2.2.len, rfl, fun ix hix => congrArg f (h.2.2.val ix hix)⟩
  setAttrs h m := ⟨h.1, h.2.1, h.2.2.dims, h.2.2.len, rfl, h.2.2.val⟩
  subset h h' := by
    constructor
    · intro hs d hd
      exact h.2.2.dims.mem_iff.1 (hs d (h'.2.2.dims.mem_iff.2 hd))
    · intro hs d hd
      exact h.2.2.dims.mem_iff.2 (hs d (h'.2.2.dims.mem_iff.1 hd))
  binop := by
    intro a b a' b' h h' f
    obtain ⟨wa, wb, hab⟩ := h
    obtain ⟨wa', wb', hab'⟩ := h'
    have hl : SameLengths a a' ↔ SameLengths b b' := by
      constructor
      · intro hs d hd hd'
        rw [← hab.len d (hab.dims.mem_iff.2 hd), ← hab'.len d (hab'.dims.mem_iff.2 hd')]
        exact hs d (hab.dims.mem_iff.2 hd) (hab'.dims.mem_iff.2 hd')
      · intro hs d hd hd'
        rw [hab.len d hd, hab'.len d hd']
        exact hs d (hab.dims.mem_iff.1 hd) (hab'.dims.mem_iff.1 hd')
    by_cases hs : SameLengths a a'
    · obtain ⟨r, er, wr, dr, l1, l2, vr⟩ := (binop_spec f a a' wa wa').1 hs
      obtain ⟨q, eq, wq, dq, m1, m2, vq⟩ := (binop_spec f b b' wb wb').1 (hl.1 hs)
      rw [er, eq]
      refine ⟨wr, wq, ?_, ?_, (binop_attrs er).trans (binop_attrs eq).symm, ?_⟩
      · rw [dr, dq]
        refine hab.dims.append ?_
        have : (fun d => decide (d ∉ a.dims)) = fun d => decide (d ∉ b.dims) := by
          funext d
          simp only [hab.dims.mem_iff]
        rw [this]
        exact hab'.dims.filter _
      · intro d hd
        rw [dr, List.mem_append] at hd
        rcases hd with hd | hd
        · rw [l1 d hd, m1 d (hab.dims.mem_iff.1 hd), hab.len d hd]
        · have hd := (List.mem_filter.1 hd).1
          rw [l2 d hd, m2 d (hab'.dims.mem_iff.1 hd), hab'.len d hd]
      · intro ix hix
        rw [vr, vq, hab.val ix ?_, hab'.val ix ?_]
        · intro d hd
          rw [← l2 d hd]
          refine hix d ?_
          rw [dr, List.mem_append, List.mem_filter]
          by_cases hda : d ∈ a.dims
          · exact .inl hda
          · exact .inr ⟨hd, by simpa using hda⟩
        · intro d hd
          rw [← l1 d hd]
          exact hix d (by rw [dr]; exact List.mem_append_left _ hd)
    · rw [(binop_spec f a a' wa wa').2 hs, (binop_spec f b b' wb wb').2 fun h => hs (hl.2 h)]
      rfl

/-! ## Dimensions renamed -/

theorem named_rename {f : String → String} (hf : Function.Injective f) (dims : List String) (idx : List Nat) (d : String) :
    DataArray.named (dims.map f) idx (f d) = DataArray.named dims idx d := by
  unfold DataArray.named
  congr 1
  induction dims with
  | nil => rfl
  | cons e l ih =>
    rw [List.map_cons, List.idxOf_cons, List.idxOf_cons, ih]
    by_cases h : e = d
    · subst h; simp
    · have h' : f e ≠ f d := fun hc => h (hf hc)
      rw [beq_false_of_ne h', beq_false_of_ne h]

/-- **C91, renamed dimensions** are respected by xarray's arithmetic. -/
theorem renamed_respected {f : String → String} (hf : Function.Injective f) : Respected (Renamed f) where
  attrs h := by rw [h.2]
  map h g m := ⟨h.1, by rw [h.2]⟩
  setAttrs h m := ⟨h.1, by rw [h.2]⟩
  subset h h' := by
    rw [h.2, h'.2]
    simp only [List.mem_map, forall_exists_index, and_imp, forall_apply_eq_imp_iff₂, hf.eq_iff, exists_eq_right]
  binop := by
    intro a b a' b' h h' g
    obtain ⟨wa, rfl⟩ := h
    obtain ⟨wa', rfl⟩ := h'
    have hlen : ∀ (x : DataArray) d, DataArray.len { x with dims := x.dims.map f } (f d) = x.len d := fun x d =>
      named_rename hf _ _ _
    have hmem : ∀ (l : List String) d, f d ∈ l.map f ↔ d ∈ l := fun l d => by
      simp [hf.eq_iff]
    have hdims : a.dims.map f ++ (a'.dims.map f).filter (fun d => d ∉ a.dims.map f) =
        (a.dims ++ a'.dims.filter (fun d => d ∉ a.dims)).map f := by
      rw [List.map_append, List.filter_map]
      congr 2
      refine List.filter_congr fun d _ => ?_
      show decide (f d ∉ a.dims.map f) = decide (d ∉ a.dims)
      rw [decide_eq_decide, hmem]
    have hat : ∀ (x : DataArray) (dims : List String) idx, DataArray.at' { x with dims := x.dims.map f }
        (DataArray.named (dims.map f) idx) = x.at' (DataArray.named dims idx) := by
      intro x dims idx
      unfold DataArray.at'
      dsimp only
      rw [List.map_map]
      congr 1
      refine List.map_congr_left fun d _ => ?_
      exact named_rename hf _ _ _
    by_cases hs : SameLengths a a'
    · obtain ⟨r, er, wr, -⟩ := (binop_spec g a a' wa wa').1 hs
      rw [er]
      have hs' : ∀ d ∈ a'.dims.map f, d ∈ a.dims.map f → DataArray.len { a' with dims := a'.dims.map f } d =
          DataArray.len { a with dims := a.dims.map f } d := by
        intro d hd hd'
        obtain ⟨e, he, rfl⟩ := List.mem_map.1 hd
        rw [hlen, hlen]
        exact (hs e ((hmem _ _).1 hd') he).symm
      have hc : ∀ d ∈ a'.dims, d ∈ a.dims → a'.len d = a.len d := fun d h1 h2 => (hs d h2 h1).symm
      unfold DataArray.binop at er ⊢
      simp only [if_pos hc] at er
      simp only [if_pos hs']
      cases er
      refine ⟨wr, ?_⟩
      simp only [hdims, hat]
      congr 2
      rw [List.map_map]
      refine List.map_congr_left fun d _ => ?_
      simp only [Function.comp, hmem, hlen]
    · rw [(binop_spec g a a' wa wa').2 hs]
      have : ¬ ∀ d ∈ a'.dims.map f, d ∈ a.dims.map f → DataArray.len { a' with dims := a'.dims.map f } d =
          DataArray.len { a with dims := a.dims.map f } d := by
        intro hc
        refine hs fun d h1 h2 => ?_
        have := hc (f d) ((hmem _ _).2 h2) ((hmem _ _).2 h1)
        rw [hlen, hlen] at this
        exact this.symm
      unfold DataArray.binop
      simp only [if_neg this]
      rfl

/-! ## One column -/

/-- **C91, one column** (position `i` along a dimension `d` that every quantity has, with
the same length) is respected by xarray's arithmetic. -/
theorem column_respected (d : String) (n i : Nat) : Respected (Column d n i) where
  attrs h := h.attrs
  map h g m := ⟨h.wf, h.wf', h.has, h.length, h.within, h.dims, h.len, rfl, fun ix hix => congrArg g (h.val ix hix)⟩
  setAttrs h m := ⟨h.wf, h.wf', h.has, h.length, h.within, h.dims, h.len, rfl, h.val⟩
  subset h h' := by
    rw [h.dims, h'.dims]
    constructor
    · intro hs e he
      rw [h'.wf.2.mem_erase_iff] at he
      rw [h.wf.2.mem_erase_iff]
      exact ⟨he.1, hs e he.2⟩
    · intro hs e he
      by_cases hed : e = d
      · rw [hed]; exact h.has
      · have := hs e (h'.wf.2.mem_erase_iff.2 ⟨hed, he⟩)
        exact (h.wf.2.mem_erase_iff.1 this).2
  binop := by
    intro a b a' b' h h' f
    have hm : ∀ {x y : DataArray}, Column d n i x y → ∀ e, e ∈ y.dims ↔ e ≠ d ∧ e ∈ x.dims := fun hxy e => by
      rw [hxy.dims, hxy.wf.2.mem_erase_iff]
    have hl : SameLengths a a' ↔ SameLengths b b' := by
      constructor
      · intro hs e he he'
        rw [h.len e he, h'.len e he']
        exact hs e ((hm h e).1 he).2 ((hm h' e).1 he').2
      · intro hs e he he'
        by_cases hed : e = d
        · rw [hed, h.length, h'.length]
        · have h1 := (hm h e).2 ⟨hed, he⟩
          have h2 := (hm h' e).2 ⟨hed, he'⟩
          rw [← h.len e h1, ← h'.len e h2]
          exact hs e h1 h2
    by_cases hs : SameLengths a a'
    · obtain ⟨r, er, wr, dr, l1, l2, vr⟩ := (binop_spec f a a' h.wf h'.wf).1 hs
      obtain ⟨q, eq, wq, dq, m1, m2, vq⟩ := (binop_spec f b b' h.wf' h'.wf').1 (hl.1 hs)
      rw [er, eq]
      have hdims : q.dims = r.dims.erase d := by
        rw [dq, dr, List.erase_append_left _ h.has, h.dims]
        congr 1
        rw [h'.dims, h'.wf.2.erase_eq_filter, List.filter_filter]
        refine List.filter_congr fun e _ => ?_
        rw [Bool.eq_iff_iff]
        simp only [decide_eq_true_eq, Bool.and_eq_true, bne_iff_ne, h.wf.2.mem_erase_iff]
        constructor
        · rintro ⟨h1, h2⟩ h3
          exact h1 ⟨h2, h3⟩
        · intro h1
          exact ⟨fun h2 => h1 h2.2, fun h2 => h1 (h2 ▸ h.has)⟩
      refine ⟨wr, wq, ?_, ?_, h.within, hdims, ?_, (binop_attrs er).trans (binop_attrs eq).symm, ?_⟩
      · rw [dr]; exact List.mem_append_left _ h.has
      · rw [l1 d h.has]; exact h.length
      · intro e he
        rw [dq, List.mem_append] at he
        rcases he with he | he
        · rw [m1 e he, l1 e ((hm h e).1 he).2, h.len e he]
        · have he := (List.mem_filter.1 he).1
          rw [m2 e he, l2 e ((hm h' e).1 he).2, h'.len e he]
      · intro ix hix
        have hb : ∀ e ∈ b.dims, ix e < b.len e := fun e he => by
          rw [← m1 e he]
          exact hix e (by rw [dq]; exact List.mem_append_left _ he)
        have hb' : ∀ e ∈ b'.dims, ix e < b'.len e := fun e he => by
          rw [← m2 e he]
          refine hix e ?_
          rw [dq, List.mem_append, List.mem_filter]
          by_cases hea : e ∈ b.dims
          · exact .inl hea
          · exact .inr ⟨he, by simpa using hea⟩
        rw [vq, vr, h.val ix hb, h'.val ix hb']
    · rw [(binop_spec f a a' h.wf h'.wf).2 hs, (binop_spec f b b' h.wf' h'.wf').2 fun h => hs (hl.2 h)]
      rfl

/-- `a.isel({d: i})` (xarray). -/
def isel (a : DataArray) (d : String) (i : Nat) : DataArray where
  dims := a.dims.erase d
  arr := { shape := (a.dims.erase d).map a.len
           get := fun idx => a.at' fun e => if e = d then i else DataArray.named (a.dims.erase d) idx e }
  attrs := a.attrs

/-- Taking a column of an array gives one. -/
theorem isel_column {a : DataArray} (ha : a.WF) {d : String} (hd : d ∈ a.dims) {i : Nat} (hi : i < a.len d) :
    Column d (a.len d) i a (isel a d i) where
  wf := ha
  wf' := ⟨by simp [isel], ha.2.erase _⟩
  has := hd
  length := rfl
  within := hi
  dims := rfl
  len e he := DataArray.named_map (ix := a.len) he
  attrs := rfl
  val ix _ := by
    show a.at' _ = a.at' _
    refine at_congr a fun e he => ?_
    by_cases hed : e = d
    · simp [hed]
    · simp only [if_neg hed]
      exact DataArray.named_map (ha.2.mem_erase_iff.2 ⟨hed, he⟩)

/-! ## Runs -/

/-- The dimensions declared in the properties play no role in a call, so the theorems
below also compare steppers whose components declare other dimensions. -/
theorem tsCall_units_only {τ σ : Type} (R : Registry) {inP inP' outP outP' : PropDict} (inst : String) (tid : Bool)
    (call : τ → σ → State → Int → τ × σ × State × Except Err (Dict DataArray × State)) (x : τ) (s : σ) (state : State)
    (dt : Int) (hi : ∀ n, (inP.get? n).map QProps.units = (inP'.get? n).map QProps.units) (ho : outP.keys = outP'.keys) :
    tsCall R inP outP inst tid call x s state dt = tsCall R inP' outP' inst tid call x s state dt := by
  have hn : ∀ st new n, netTendency R inP st new dt n = netTendency R inP' st new dt n := by
    intro st new n
    have h := hi n
    unfold netTendency Dict.get
    revert h
    cases inP.get? n <;> cases inP'.get? n <;> intro h
    · rfl
    · cases h
    · cases h
    · have h : _ = _ := Option.some.inj h
      simp only [Exc.ok_bind, h]
  have hl : ∀ st new l diag, insertNet R inP inst st new dt l diag = insertNet R inP' inst st new dt l diag := by
    intro st new l
    induction l with
    | nil => intro diag; rfl
    | cons n l ih =>
      intro diag
      unfold insertNet
      simp only [hn, ih]
  unfold tsCall
  simp only [hl, ho]

section
variable {R : Registry} {Q : DataArray → DataArray → Prop}

/-- **C91.**  Runs of any number of steps with each time stepper, freshly made: started
from corresponding states they end in corresponding states, or both fail. -/
theorem runs_commute (hQ : Respected Q) {σ : Type} {p p' : Prog σ} (hp : ProgsRel Q p p') (inProps outProps : PropDict)
    (inst : String) (tid : Bool) (s : σ) {state state' : State} (hs : StatesRel Q state state') (dt : Int) (n : Nat) :
    (∀ order, RunRel (ABsRel Q) Q
      (runSteps (tsCall R inProps outProps inst tid (abCall R p)) dt n { order := order } s state)
      (runSteps (tsCall R inProps outProps inst tid (abCall R p')) dt n { order := order } s state')) ∧
    (∀ strength alpha, RunRel (LFsRel Q) Q
      (runSteps (tsCall R inProps outProps inst tid (LF.call R p)) dt n { strength := strength, alpha := alpha } s state)
      (runSteps (tsCall R inProps outProps inst tid (LF.call R p')) dt n { strength := strength, alpha := alpha } s
        state')) ∧
    (∀ three, RunRel (ABsRel Q) Q
      (runSteps (tsCall R inProps outProps inst tid (sspCall R p three)) dt n { order := 1 } s state)
      (runSteps (tsCall R inProps outProps inst tid (sspCall R p' three)) dt n { order := 1 } s state')) := by
  refine ⟨fun order => ?_, fun strength alpha => ?_, fun three => ?_⟩
  · exact run_commutes (fun x x' s state state' hM hs => ab_commutes hQ hp _ _ _ _ hM s hs dt) n s
      ⟨rfl, rfl, List.Forall₂.nil⟩ hs
  · exact run_commutes (fun x x' s state state' hM hs => leapfrog_commutes hQ hp _ _ _ _ hM s hs dt) n s
      ⟨rfl, rfl, rfl, trivial⟩ hs
  · exact run_commutes (fun x x' s state state' hM hs => ssprk_commutes hQ hp three _ _ _ _ hM s hs dt) n s
      ⟨rfl, rfl, List.Forall₂.nil⟩ hs

/-- A component that relaxes `name` at the given rate, as an example of one that works
point by point. -/
def decayProg (name units : String) (rate : Rat) : Prog Unit := fun u state _ =>
  (u, state.da name >>= fun a => .ok ([(name, { a.smul (-rate) with attrs := [("units", units)] })], [(name ++ "_old", a)]))

theorem decayProg_commutes (hQ : Respected Q) (name units : String) (rate : Rat) :
    ProgsRel Q (decayProg name units rate) (decayProg name units rate) := by
  intro s state state' dt hs
  refine ⟨rfl, ?_⟩
  unfold decayProg State.da
  dsimp only
  rcases hs.get? name with ⟨h1, h2⟩ | ⟨w, w', h1, h2, hw⟩
  · rw [h1, h2]; rfl
  · rw [h1, h2]
    cases w <;> cases w'
    · exact ⟨List.Forall₂.cons ⟨rfl, hQ.map hw _ _⟩ List.Forall₂.nil, List.Forall₂.cons ⟨rfl, hw⟩ List.Forall₂.nil⟩
    · exact hw.elim
    · exact hw.elim
    · rfl

end

namespace Demo

def warm : State := [("time", .time 0), ("T", .da temp)]
def warmT : State := [("time", .time 0), ("T", .da tempT)]
def warmR : State := [("time", .time 0), ("T", .da { temp with dims := ["x_1", "z_1", "y_1"] })]
def warmC : State := [("time", .time 0), ("T", .da (isel temp "x" 1))]

def suffixed (s : String) : String := s ++ "_1"

theorem suffixed_injective : Function.Injective suffixed := by
  intro a b h
  have h := congrArg String.toList h
  unfold suffixed at h
  rw [String.toList_append, String.toList_append] at h
  exact String.toList_injective (List.append_cancel_right h)

theorem temp_wf : temp.WF := by unfold DataArray.WF; decide

theorem warm_reordered : StatesRel Reordered warm warmT :=
  .cons ⟨rfl, rfl⟩ (.cons ⟨rfl, temp_wf, by unfold DataArray.WF; decide, temp_same⟩ .nil)

theorem warm_renamed : StatesRel (Renamed suffixed) warm warmR :=
  .cons ⟨rfl, rfl⟩ (.cons ⟨rfl, temp_wf, by
    show DataArray.mk _ _ _ = DataArray.mk _ _ _
    congr 1⟩ .nil)

theorem warm_column : StatesRel (Column "x" 2 1) warm warmC :=
  .cons ⟨rfl, rfl⟩ (.cons ⟨rfl, isel_column temp_wf (by decide) (by decide +kernel)⟩ .nil)

def warmProps : PropDict := [("T", { dims := some ["x", "z", "y"], units := some "K" })]

/-- Value of `T` at the end of a run. -/
def finalT {τ : Type} (ix : String → Nat) : Option (τ × Unit × State) → Option Rat
  | some (_, _, st) => match Dict.get? st "T" with
    | some (.da a) => some (a.at' ix)
    | _ => none
  | none => none

def cell : String → Nat := fun d => if d = "z" then 2 else 1

/-- C91: a state, the same with axes in another order, with renamed dims, and one column
of it; a component that works point by point; and three steps with AdamsBashforth and
Leapfrog, whose values in one cell agree. -/
example : ProgsRel Reordered (decayProg "T" "K s^-1" (1 / 10)) (decayProg "T" "K s^-1" (1 / 10)) ∧
    StatesRel Reordered warm warmT ∧ StatesRel (Renamed suffixed) warm warmR ∧ StatesRel (Column "x" 2 1) warm warmC ∧
    (∀ st ∈ [warm, warmT, warmC], finalT cell (runSteps (tsCall reg warmProps warmProps "S" false
      (abCall reg (decayProg "T" "K s^-1" (1 / 10)))) 1000000 3 { order := 2 } () st) = some (357071 / 4000)) ∧
    ∀ st ∈ [warm, warmT, warmC], finalT cell (runSteps (tsCall reg warmProps warmProps "S" false
      (LF.call reg (decayProg "T" "K s^-1" (1 / 10)))) 1000000 3 {} () st) = some (142554819 / 1600000) := by
  refine ⟨decayProg_commutes reordered_respected _ _ _, warm_reordered, warm_renamed, warm_column, ?_, ?_⟩
  · decide +kernel
  · decide +kernel

end Demo

end Verif

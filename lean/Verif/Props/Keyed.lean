import Verif.Spec.Keyed
import Verif.Props.Commutes
/-!
# Steppers and runs under a correspondence that depends on the quantity

As in C91, for relations that depend on the name of the quantity and may differ between
quantities, tendencies and diagnostics.
-/

namespace Verif

section
variable {R : Registry} {S T : String → DataArray → DataArray → Prop} {W : DataArray → DataArray → Prop}

theorem entriesState_relK {s s' : State} (h : StatesRelK S s s') : StateRel S (entriesState s) s' := by
  induction h with
  | nil => exact List.Forall₂.nil
  | cons hab hrest ih =>
    rename_i a b l l'
    obtain ⟨ka, va⟩ := a
    obtain ⟨kb, vb⟩ := b
    refine List.Forall₂.cons ⟨hab.1, ?_⟩ ih
    have h2 := hab.2
    cases va <;> cases vb <;> exact h2

theorem from_relK {x : EState DataArray} {s : State} (h : StateRel S x s) :
    StatesRelK S (Dict.mapVal fromEntry x) s := by
  induction h with
  | nil => exact List.Forall₂.nil
  | cons hab hrest ih =>
    rename_i a b l l'
    obtain ⟨ka, va⟩ := a
    obtain ⟨kb, vb⟩ := b
    refine List.Forall₂.cons ⟨hab.1, ?_⟩ ih
    have h2 := hab.2
    cases va <;> cases vb <;> exact h2

theorem through_entriesK {x : EState DataArray} {s s' : State} (h : StateRel (fun _ v a => v = a) x s)
    (h' : StateRel S x s') : StatesRelK S s s' := by
  rw [← entries_state h]
  exact from_relK h'

theorem onEntries_relK {σ : Type} {p p' : Prog σ} (h : ProgsRelK S T W p p') :
    ProgRel S T W (onEntries p) p' :=
  fun s _ _ dt hs => h s _ _ dt (from_relK hs)

theorem through_stepK {x : Except Err (Dict DataArray × EState DataArray)} {y y' : Except Err (Dict DataArray × State)}
    (h : StepRel (fun _ v a => v = a) (fun v a => v = a) x y) (h' : StepRel S W x y') :
    Exc.Rel (fun a b => DictRel W a.1 b.1 ∧ StatesRelK S a.2 b.2) y y' := by
  cases x with
  | error e =>
    cases y with
    | ok b => exact h.elim
    | error f =>
      cases y' with
      | ok b => exact h'.elim
      | error f' => exact (show e = f from h).symm.trans h'
  | ok a =>
    cases y with
    | error e => exact h.elim
    | ok b =>
      cases y' with
      | error e => exact h'.elim
      | ok b' =>
        obtain ⟨h1, h2⟩ := h
        obtain ⟨h3, h4⟩ := h'
        exact ⟨dictRel_eq h1 ▸ h3, through_entriesK h2 h4⟩

theorem toABO_relK {ab ab' : AB} (h : ABsRelK T ab ab') : ABOverRel T (toABO ab) ab' := h

theorem through_abK {x : ABOver DataArray} {y y' : AB} (h : ABOverRel (fun _ v a => v = a) x y)
    (h' : ABOverRel T x y') : ABsRelK T y y' := by
  obtain ⟨h1, h2, h3⟩ := h
  have : x.hist = y.hist := by
    revert h3
    generalize x.hist = l
    generalize y.hist = m
    intro h3
    induction h3 with
    | nil => rfl
    | cons hab _ ih => rw [keyRel_eq hab, ih]
  exact ⟨h1.symm.trans h'.1, h2.symm.trans h'.2.1, this ▸ h'.2.2⟩

theorem toLFO_relK {lf lf' : LF} (h : LFsRelK S lf lf') : LFOverRel S (toLFO lf) lf' := by
  obtain ⟨h1, h2, h3, h4⟩ := h
  refine ⟨h1, h2, h3, ?_⟩
  unfold toLFO
  dsimp only
  revert h4
  cases lf.old <;> cases lf'.old <;> intro h4
  · trivial
  · exact h4.elim
  · exact h4.elim
  · exact entriesState_relK h4

theorem through_lfK {x : LFOver DataArray} {y y' : LF} (h : LFOverRel (fun _ v a => v = a) x y)
    (h' : LFOverRel S x y') : LFsRelK S y y' := by
  obtain ⟨h1, h2, h3, h4⟩ := h
  obtain ⟨h1', h2', h3', h4'⟩ := h'
  refine ⟨h1.symm.trans h1', h2.symm.trans h2', h3.symm.trans h3', ?_⟩
  revert h4 h4'
  cases x.old <;> cases y.old <;> cases y'.old <;> intro h4 h4' <;>
    first | trivial | exact h4.elim | exact h4'.elim | exact through_entriesK h4 h4'

/-! ## Time steppers -/

/-- Calls over entries that agree with `call` and correspond to `call'` make `call` and
`call'` correspond. -/
theorem through_callK {σ τ τE : Type} {M : τ → τ → Prop} (hQ : StandFor R (dataArrayArith R) S T W) (ME : τE → τ → Prop) (MQ : τE → τ → Prop)
    (hM : ∀ x y y', ME x y → MQ x y' → M y y') (inProps outProps : PropDict) (inst : String) (tid : Bool)
    {callE : τE → σ → EState DataArray → Int → τE × σ × EState DataArray × Except Err (Dict DataArray × EState DataArray)}
    {call call' : τ → σ → State → Int → τ × σ × State × Except Err (Dict DataArray × State)} {xE : τE} {x x' : τ} {s : σ}
    {stateE : EState DataArray} {state state' : State} {dt : Int}
    (hE : ME (callE xE s stateE dt).1 (call x s state dt).1 ∧ (callE xE s stateE dt).2.1 = (call x s state dt).2.1 ∧
      StateRel (fun _ v a => v = a) (callE xE s stateE dt).2.2.1 (call x s state dt).2.2.1 ∧
      StepRel (fun _ v a => v = a) (fun v a => v = a) (callE xE s stateE dt).2.2.2 (call x s state dt).2.2.2)
    (hC : MQ (callE xE s stateE dt).1 (call' x' s state' dt).1 ∧ (callE xE s stateE dt).2.1 = (call' x' s state' dt).2.1 ∧
      StateRel S (callE xE s stateE dt).2.2.1 (call' x' s state' dt).2.2.1 ∧
      StepRel S W (callE xE s stateE dt).2.2.2 (call' x' s state' dt).2.2.2) :
    CallRelK M S W (tsCall R inProps outProps inst tid call x s state dt)
      (tsCall R inProps outProps inst tid call' x' s state' dt) := by
  obtain ⟨a1, a2, a3, a4⟩ := stepper_over (dataArray_stand R) ME inProps outProps inst tid s dt hE
  obtain ⟨b1, b2, b3, b4⟩ := stepper_over hQ MQ inProps outProps inst tid s dt hC
  exact ⟨hM _ _ _ a1 b1, a2.symm.trans b2, through_entriesK a3 b3, through_stepK a4 b4⟩

/-- AdamsBashforth:  Stepping corresponding states gives corresponding results. -/
theorem ab_keyed (hQ : StandFor R (dataArrayArith R) S T W) {σ : Type} {p p' : Prog σ} (hp : ProgsRelK S T W p p') (inProps outProps : PropDict)
    (inst : String) (tid : Bool) {ab ab' : AB} (hab : ABsRelK T ab ab') (s : σ) {state state' : State}
    (hs : StatesRelK S state state') (dt : Int) :
    CallRelK (ABsRelK T) S W (tsCall R inProps outProps inst tid (abCall R p) ab s state dt)
      (tsCall R inProps outProps inst tid (abCall R p') ab' s state' dt) := by
  obtain ⟨a1, a2, a3⟩ := ab_over (dataArray_stand R) (onEntries_eq p) (toABO_eq ab) s (entriesState_eq state) dt
  obtain ⟨b1, b2, b3⟩ := ab_over hQ (onEntries_relK hp) (toABO_relK hab) s (entriesState_relK hs) dt
  exact through_callK hQ (ABOverRel fun _ v a => v = a) (ABOverRel T) (fun _ _ _ => through_abK) inProps outProps inst
    tid (callE := abCallO (dataArrayArith R) (onEntries p)) ⟨a1, a2, entriesState_eq state, a3⟩
    ⟨b1, b2, entriesState_relK hs, b3⟩

/-- SSPRungeKutta. -/
theorem ssprk_keyed (hQ : StandFor R (dataArrayArith R) S T W) {σ : Type} {p p' : Prog σ} (hp : ProgsRelK S T W p p') (three : Bool)
    (inProps outProps : PropDict)
    (inst : String) (tid : Bool) {ab ab' : AB} (hab : ABsRelK T ab ab') (s : σ) {state state' : State}
    (hs : StatesRelK S state state') (dt : Int) :
    CallRelK (ABsRelK T) S W (tsCall R inProps outProps inst tid (sspCall R p three) ab s state dt)
      (tsCall R inProps outProps inst tid (sspCall R p' three) ab' s state' dt) := by
  obtain ⟨a1, a2, a3⟩ := ssprk_over (dataArray_stand R) (onEntries_eq p) three (toABO_eq ab) s (entriesState_eq state) dt
  obtain ⟨b1, b2, b3⟩ := ssprk_over hQ (onEntries_relK hp) three (toABO_relK hab) s (entriesState_relK hs) dt
  exact through_callK hQ (ABOverRel fun _ v a => v = a) (ABOverRel T) (fun _ _ _ => through_abK) inProps outProps inst
    tid (callE := sspCallO (dataArrayArith R) (onEntries p) three) ⟨a1, a2, entriesState_eq state, a3⟩
    ⟨b1, b2, entriesState_relK hs, b3⟩

/-- Leapfrog. -/
theorem leapfrog_keyed (hQ : StandFor R (dataArrayArith R) S T W) {σ : Type} {p p' : Prog σ} (hp : ProgsRelK S T W p p')
    (inProps outProps : PropDict)
    (inst : String) (tid : Bool) {lf lf' : LF} (hlf : LFsRelK S lf lf') (s : σ) {state state' : State}
    (hs : StatesRelK S state state') (dt : Int) :
    CallRelK (LFsRelK S) S W (tsCall R inProps outProps inst tid (LF.call R p) lf s state dt)
      (tsCall R inProps outProps inst tid (LF.call R p') lf' s state' dt) :=
  through_callK hQ (LFOverRel fun _ v a => v = a) (LFOverRel S) (fun _ _ _ => through_lfK) inProps outProps inst
    tid (callE := LFOver.call (dataArrayArith R) (onEntries p))
    (leapfrog_over (dataArray_stand R) (onEntries_eq p) (toLFO_eq lf) s (entriesState_eq state) dt)
    (leapfrog_over hQ (onEntries_relK hp) (toLFO_relK hlf) s (entriesState_relK hs) dt)

/-- Whole runs of any of these steppers. -/
theorem run_keyed {σ τ : Type} {M : τ → τ → Prop}
    {call call' : τ → σ → State → Int → τ × σ × State × Except Err (Dict DataArray × State)} {dt : Int}
    (hcall : ∀ x x' s state state', M x x' → StatesRelK S state state' →
      CallRelK M S W (call x s state dt) (call' x' s state' dt))
    (n : Nat) {x x' : τ} (s : σ) {state state' : State} (hM : M x x') (hs : StatesRelK S state state') :
    RunRelK M S (runSteps call dt n x s state) (runSteps call' dt n x' s state') := by
  induction n generalizing x x' s state state' with
  | zero => exact ⟨hM, rfl, hs⟩
  | succ n ih =>
    have h := hcall x x' s state state' hM hs
    unfold runSteps
    revert h
    generalize call x s state dt = r
    generalize call' x' s state' dt = r'
    intro h
    obtain ⟨r1, r2, r3, r4⟩ := r
    obtain ⟨r1', r2', r3', r4'⟩ := r'
    obtain ⟨h1, h2, h3, h4⟩ := h
    simp only at h1 h2 h3 h4
    subst h2
    cases r4 with
    | error e =>
      cases r4' with
      | error e' => trivial
      | ok b => exact h4.elim
    | ok o =>
      cases r4' with
      | error e' => exact h4.elim
      | ok o' => exact ih r2 h1 h4.2

/-! ## Composites -/

theorem addInto_keyed (hQ : StandFor R (dataArrayArith R) S T W) {d d' t t' : Dict DataArray} (hd : KeyRel T d d')
    (ht : KeyRel T t t') : Exc.Rel (KeyRel T) (addInto R d t) (addInto R d' t') := by
  induction hd generalizing t t' with
  | nil => exact ht
  | cons hab hrest ih =>
    rename_i a b l l'
    obtain ⟨ka, va⟩ := a
    obtain ⟨kb, vb⟩ := b
    obtain ⟨hk, hv⟩ := hab
    simp only at hk hv
    subst hk
    unfold addInto
    rcases ht.get? ka with ⟨h1, h2⟩ | ⟨w, w', h1, h2, hw⟩
    · rw [h1, h2]; exact ih (ht.set ka hv)
    · rw [h1, h2]
      dsimp only
      rw [show w.attrs = w'.attrs from hQ.attrsT hw, show va.attrs = vb.attrs from hQ.attrsT hv]
      cases w'.attrs.get? "units" with
      | none => rfl
      | some u =>
        cases vb.attrs.get? "units" with
        | none => rfl
        | some u' =>
          dsimp only
          exact Exc.Rel.bind (P := T ka) (hQ.toUnitsT hv u) fun x y hxy =>
            Exc.Rel.bind (P := T ka) (hQ.addTT hw hxy) fun x y hxy => ih (ht.set ka hxy)

theorem compositeLoop_keyed (hQ : StandFor R (dataArrayArith R) S T W) {σ : Type}
    {fs fs' : List (σ → σ × Except Err TendOut)}
    (hf : List.Forall₂ (fun f f' => ∀ s, (f s).1 = (f' s).1 ∧
      Exc.Rel (fun x y => KeyRel T x.1 y.1 ∧ DictRel W x.2 y.2) (f s).2 (f' s).2) fs fs')
    (s : σ) {t t' d d' : Dict DataArray} (ht : KeyRel T t t') (hd : DictRel W d d') :
    (compositeLoop R fs s t d).1 = (compositeLoop R fs' s t' d').1 ∧
    Exc.Rel (fun x y => KeyRel T x.1 y.1 ∧ DictRel W x.2 y.2) (compositeLoop R fs s t d).2
      (compositeLoop R fs' s t' d').2 := by
  induction hf generalizing s t t' d d' with
  | nil => exact ⟨rfl, ht, hd⟩
  | cons hff hrest ih =>
    rename_i f f' l l'
    unfold compositeLoop
    have h := hff s
    revert h
    generalize f s = r
    generalize f' s = r'
    intro h
    obtain ⟨r1, r2⟩ := r
    obtain ⟨r1', r2'⟩ := r'
    obtain ⟨h1, h2⟩ := h
    simp only at h1 h2
    subst h1
    cases r2 with
    | error e =>
      cases r2' with
      | error e' => exact ⟨rfl, h2⟩
      | ok b => exact h2.elim
    | ok o =>
      cases r2' with
      | error e' => exact h2.elim
      | ok o' =>
        dsimp only
        have h3 := addInto_keyed hQ h2.1 ht
        revert h3
        generalize addInto R o.1 t = z
        generalize addInto R o'.1 t' = z'
        intro h3
        cases z with
        | error e =>
          cases z' with
          | error e' => exact ⟨rfl, h3⟩
          | ok b => exact h3.elim
        | ok u =>
          cases z' with
          | error e' => exact h3.elim
          | ok u' => exact ih r1 h3 (hd.update h2.2)

/-- Composites. -/
theorem composite_keyed (hQ : StandFor R (dataArrayArith R) S T W) {σ : Type} {cs cs' : List (Comp σ)}
    (hc : List.Forall₂ (fun c c' => ProgsRelK S T W (fun s state dt => implicitCall c state dt s)
      (fun s state dt => implicitCall c' state dt s)) cs cs') :
    ProgsRelK S T W (fun s state dt => callImplicitComposite R cs s state dt)
      (fun s state dt => callImplicitComposite R cs' s state dt) := by
  intro s state state' dt hs
  unfold callImplicitComposite
  refine compositeLoop_keyed hQ ?_ s List.Forall₂.nil List.Forall₂.nil
  rw [List.forall₂_map_left_iff, List.forall₂_map_right_iff]
  exact hc.imp fun c c' h x => h x state state' dt hs

/-- Runs of any number of steps with each time stepper, freshly made. -/
theorem runs_keyed (hQ : StandFor R (dataArrayArith R) S T W) {σ : Type} {p p' : Prog σ} (hp : ProgsRelK S T W p p')
    (inProps outProps : PropDict) (inst : String) (tid : Bool) (s : σ) {state state' : State}
    (hs : StatesRelK S state state') (dt : Int) (n : Nat) :
    (∀ order, RunRelK (ABsRelK T) S
      (runSteps (tsCall R inProps outProps inst tid (abCall R p)) dt n { order := order } s state)
      (runSteps (tsCall R inProps outProps inst tid (abCall R p')) dt n { order := order } s state')) ∧
    (∀ strength alpha, RunRelK (LFsRelK S) S
      (runSteps (tsCall R inProps outProps inst tid (LF.call R p)) dt n { strength := strength, alpha := alpha } s state)
      (runSteps (tsCall R inProps outProps inst tid (LF.call R p')) dt n { strength := strength, alpha := alpha } s
        state')) ∧
    (∀ three, RunRelK (ABsRelK T) S
      (runSteps (tsCall R inProps outProps inst tid (sspCall R p three)) dt n { order := 1 } s state)
      (runSteps (tsCall R inProps outProps inst tid (sspCall R p' three)) dt n { order := 1 } s state')) := by
  refine ⟨fun order => ?_, fun strength alpha => ?_, fun three => ?_⟩
  · exact run_keyed (fun x x' s state state' hM hs => ab_keyed hQ hp _ _ _ _ hM s hs dt) n s
      ⟨rfl, rfl, List.Forall₂.nil⟩ hs
  · exact run_keyed (fun x x' s state state' hM hs => leapfrog_keyed hQ hp _ _ _ _ hM s hs dt) n s
      ⟨rfl, rfl, rfl, trivial⟩ hs
  · exact run_keyed (fun x x' s state state' hM hs => ssprk_keyed hQ hp three _ _ _ _ hM s hs dt) n s
      ⟨rfl, rfl, List.Forall₂.nil⟩ hs

end

end Verif

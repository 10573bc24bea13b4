import Verif.Spec.SteppersOver
import Verif.Lemmas.BackendCalls
/-!
# Time steppers over arrays that stand for DataArrays do what they do with DataArrays (C82, C89)
-/

namespace Verif

section KeyRel
variable {α β : Type} {r : String → α → β → Prop} {d : Dict α} {e : Dict β}

theorem KeyRel.keys (h : KeyRel r d e) : d.keys = e.keys := by
  induction h with
  | nil => rfl
  | cons hab _ ih => simp only [Dict.keys_cons, ih, hab.1]

theorem KeyRel.get? (h : KeyRel r d e) (k : String) :
    (d.get? k = none ∧ e.get? k = none) ∨ ∃ v w, d.get? k = some v ∧ e.get? k = some w ∧ r k v w := by
  induction h with
  | nil => exact .inl ⟨rfl, rfl⟩
  | cons hab hl ih =>
    rename_i a b l l'
    obtain ⟨ka, va⟩ := a
    obtain ⟨kb, vb⟩ := b
    obtain ⟨hk, hv⟩ := hab
    simp only at hk hv
    subst hk
    rw [Dict.get?_cons, Dict.get?_cons]
    by_cases e : ka = k
    · subst e
      simp only [if_true]
      exact .inr ⟨va, vb, rfl, rfl, hv⟩
    · simp only [if_neg e]
      exact ih

theorem KeyRel.get (h : KeyRel r d e) (k : String) : Exc.Rel (r k) (d.get k) (e.get k) := by
  unfold Dict.get
  rcases h.get? k with ⟨h1, h2⟩ | ⟨v, w, h1, h2, hr⟩
  · rw [h1, h2]; rfl
  · rw [h1, h2]; exact hr

theorem KeyRel.set (h : KeyRel r d e) (q : String) {v : α} {w : β} (hv : r q v w) :
    KeyRel r (d.set q v) (e.set q w) := by
  induction h with
  | nil => exact List.Forall₂.cons ⟨rfl, hv⟩ List.Forall₂.nil
  | cons hab hl ih =>
    rename_i a b l l'
    obtain ⟨ka, va⟩ := a
    obtain ⟨kb, vb⟩ := b
    obtain ⟨hk, hv'⟩ := hab
    simp only at hk hv'
    subst hk
    unfold Dict.set
    by_cases e : ka = q
    · subst e
      simp only [if_true]
      exact List.Forall₂.cons ⟨rfl, hv⟩ hl
    · simp only [if_neg e]
      exact List.Forall₂.cons ⟨rfl, hv'⟩ ih

end KeyRel

variable {R : Registry} {V : Type} {A : Arith V} {S T : String → V → DataArray → Prop} {W : V → DataArray → Prop}

theorem StateRel.da {s : EState V} {s' : State} (h : StateRel S s s') (k : String) :
    Exc.Rel (S k) (EState.da s k) (State.da s' k) := by
  unfold EState.da State.da
  rcases KeyRel.get? h k with ⟨h1, h2⟩ | ⟨v, w, h1, h2, hr⟩
  · rw [h1, h2]; rfl
  · rw [h1, h2]
    cases v <;> cases w
    · exact hr
    · exact hr.elim
    · exact hr.elim
    · rfl

theorem copyUntouchedO_rel {s : EState V} {s' : State} (h : StateRel S s s') {n : EState V} {n' : State}
    (hn : StateRel S n n') : StateRel S (copyUntouchedO s n) (copyUntouched s' n') := by
  induction h generalizing n n' with
  | nil => exact hn
  | cons hab hl ih =>
    rename_i a b l l'
    obtain ⟨ka, va⟩ := a
    obtain ⟨kb, vb⟩ := b
    obtain ⟨hk, hv⟩ := hab
    simp only at hk hv
    subst hk
    unfold copyUntouchedO copyUntouched
    rw [KeyRel.keys hn]
    by_cases e : ka ∈ Dict.keys n'
    · rw [if_pos e, if_pos e]; exact ih hn
    · rw [if_neg e, if_neg e]; exact ih (KeyRel.set hn ka hv)

theorem addStatesLoopO_rel (hA : StandFor R A S T W) {s2 : EState V} {s2' : State} (h2 : StateRel S s2 s2')
    {s : EState V} {s' : State} (h : StateRel S s s') {n : EState V} {n' : State} (hn : StateRel S n n') :
    Exc.Rel (StateRel S) (addStatesLoopO A s2 s n) (addStatesLoop s2' s' n') := by
  induction h generalizing n n' with
  | nil => exact hn
  | cons hab hl ih =>
    rename_i a b l l'
    obtain ⟨ka, va⟩ := a
    obtain ⟨kb, vb⟩ := b
    obtain ⟨hk, hv⟩ := hab
    simp only at hk hv
    subst hk
    unfold addStatesLoopO addStatesLoop
    by_cases e : ka = "time"
    · rw [if_pos e, if_pos e]; exact ih hn
    · rw [if_neg e, if_neg e]
      cases va <;> cases vb
      · refine Exc.Rel.bind (StateRel.da h2 ka) (fun x y hxy => ?_)
        refine Exc.Rel.bind (hA.addSS hv hxy) (fun u w huw => ?_)
        apply ih
        apply KeyRel.set hn ka
        rw [hA.attrsS hv]
        exact hA.setAttrs huw _
      · exact hv.elim
      · exact hv.elim
      · rfl

theorem timeEntryO_rel {s : EState V} {s' : State} (h : StateRel S s s') :
    StateRel S (timeEntryO s) (timeEntry s') := by
  unfold timeEntryO timeEntry
  rcases KeyRel.get? h "time" with ⟨h1, h2⟩ | ⟨v, w, h1, h2, hr⟩
  · rw [h1, h2]; exact List.Forall₂.nil
  · rw [h1, h2]; exact List.Forall₂.cons ⟨rfl, hr⟩ List.Forall₂.nil

theorem addStatesO_rel (hA : StandFor R A S T W) {s2 : EState V} {s2' : State} (h2 : StateRel S s2 s2')
    {s : EState V} {s' : State} (h : StateRel S s s') :
    Exc.Rel (StateRel S) (addStatesO A s s2) (addStates s' s2') :=
  addStatesLoopO_rel hA h2 h (timeEntryO_rel h)

theorem scaleStateLoopO_rel (hA : StandFor R A S T W) (c : Rat)
    {s : EState V} {s' : State} (h : StateRel S s s') {n : EState V} {n' : State} (hn : StateRel S n n') :
    Exc.Rel (StateRel S) (scaleStateLoopO A c s n) (scaleStateLoop c s' n') := by
  induction h generalizing n n' with
  | nil => exact hn
  | cons hab hl ih =>
    rename_i a b l l'
    obtain ⟨ka, va⟩ := a
    obtain ⟨kb, vb⟩ := b
    obtain ⟨hk, hv⟩ := hab
    simp only at hk hv
    subst hk
    unfold scaleStateLoopO scaleStateLoop
    by_cases e : ka = "time"
    · rw [if_pos e, if_pos e]; exact ih hn
    · rw [if_neg e, if_neg e]
      cases va <;> cases vb
      · apply ih
        apply KeyRel.set hn ka
        rw [hA.attrsS hv]
        exact hA.setAttrs (hA.smulS hv c) _
      · exact hv.elim
      · exact hv.elim
      · rfl

theorem scaleStateO_rel (hA : StandFor R A S T W) (c : Rat) {s : EState V} {s' : State} (h : StateRel S s s') :
    Exc.Rel (StateRel S) (scaleStateO A c s) (scaleState c s') :=
  scaleStateLoopO_rel hA c h (timeEntryO_rel h)

theorem convertTendenciesO_rel (hA : StandFor R A S T W) {s : EState V} {s' : State} (h : StateRel S s s')
    {t : Dict V} {t' : Dict DataArray} (ht : KeyRel T t t') :
    Exc.Rel (KeyRel T) (convertTendenciesO A s t) (convertTendencies R s' t') := by
  induction ht with
  | nil => exact List.Forall₂.nil
  | cons hab hl ih =>
    rename_i a b l l'
    obtain ⟨ka, va⟩ := a
    obtain ⟨kb, vb⟩ := b
    obtain ⟨hk, hv⟩ := hab
    simp only at hk hv
    subst hk
    unfold convertTendenciesO convertTendencies
    have h1 : Exc.Rel (T ka) (convertTendencyO A s ka va) (convertTendency R s' ka vb) := by
      unfold convertTendencyO convertTendency
      rw [if_pos (hA.container hv), hA.attrsT hv]
      cases vb.attrs.get? "units" with
      | none => exact hv
      | some u0 =>
        refine Exc.Rel.bind (StateRel.da h ka) (fun x y hxy => ?_)
        rw [hA.attrsS hxy]
        refine Exc.Rel.bind (Exc.Rel.of_eq rfl) (fun u w huw => ?_)
        subst huw
        exact hA.toUnitsT hv _
    refine Exc.Rel.bind h1 (fun x y hxy => ?_)
    refine Exc.Rel.bind ih (fun u w huw => ?_)
    exact List.Forall₂.cons ⟨rfl, hxy⟩ huw

theorem stepKeysO_rel {f : String → Except Err V} {f' : String → Except Err DataArray}
    (hf : ∀ k, Exc.Rel (S k) (f k) (f' k)) (ks : List String) :
    Exc.Rel (StateRel S) (stepKeysO f ks) (stepKeys f' ks) := by
  induction ks with
  | nil => exact List.Forall₂.nil
  | cons k ks ih =>
    unfold stepKeysO stepKeys
    refine Exc.Rel.bind (hf k) (fun x y hxy => ?_)
    refine Exc.Rel.bind ih (fun u w huw => ?_)
    exact List.Forall₂.cons ⟨rfl, hxy⟩ huw

theorem stepEulerO_rel (hA : StandFor R A S T W) {s : EState V} {s' : State} (h : StateRel S s s')
    {t : Dict V} {t' : Dict DataArray} (ht : KeyRel T t t') (dt : Int) :
    Exc.Rel (StateRel S) (stepEulerO A s t dt) (stepEuler s' t' dt) := by
  unfold stepEulerO stepEuler
  rw [KeyRel.keys ht]
  refine stepKeysO_rel (fun k => ?_) _
  refine Exc.Rel.bind (StateRel.da h k) (fun x y hxy => ?_)
  refine Exc.Rel.bind (KeyRel.get ht k) (fun u w huw => ?_)
  exact hA.addST hxy (hA.smulT huw _)

theorem performStepO_rel (hA : StandFor R A S T W) {s : EState V} {s' : State} (h : StateRel S s s')
    (order : Nat) {l : List (Dict V)} {l' : List (Dict DataArray)} (hl : List.Forall₂ (KeyRel T) l l') (dt : Int) :
    Exc.Rel (StateRel S) (performStepO A order l s dt) (performStep order l' s' dt) := by
  unfold performStepO performStep
  have hr : List.Forall₂ (KeyRel T) l.reverse l'.reverse := List.rel_reverse hl
  rw [hl.length_eq]
  cases hl with
  | nil => rfl
  | cons h0 hrest =>
    rename_i t0 t0' rest rest'
    revert hr
    generalize (t0 :: rest).reverse = m
    generalize (t0' :: rest').reverse = m'
    intro hr
    cases hr with
    | nil => rfl
    | cons h1 hprev =>
      rename_i t1 t1' prev prev'
      dsimp only
      generalize min order (t0' :: rest').length = n
      cases hprev with
      | nil =>
        match n with
        | 0 => rfl
        | 1 => exact stepEulerO_rel hA h h1 dt
        | 2 => rfl
        | 3 => rfl
        | 4 => rfl
        | n + 5 => rfl
      | cons h2 hprev =>
        rename_i t2 t2' prev prev'
        have second : Exc.Rel (StateRel S) (secondBashforthO A s t0 t2 t1 dt) (secondBashforth s' t0' t2' t1' dt) := by
          unfold secondBashforthO secondBashforth
          rw [KeyRel.keys h0]
          refine stepKeysO_rel (fun k => ?_) _
          refine Exc.Rel.bind (StateRel.da h k) (fun x y hxy => ?_)
          refine Exc.Rel.bind (KeyRel.get h1 k) (fun v1 w1 hv1 => ?_)
          refine Exc.Rel.bind (KeyRel.get h2 k) (fun v2 w2 hv2 => ?_)
          refine Exc.Rel.bind (hA.subTT (hA.smulT hv1 _) (hA.smulT hv2 _)) (fun d e hde => ?_)
          exact hA.addST hxy (hA.smulT hde _)
        cases hprev with
        | nil =>
          match n with
          | 0 => rfl
          | 1 => exact stepEulerO_rel hA h h1 dt
          | 2 => exact second
          | 3 => rfl
          | 4 => rfl
          | n + 5 => rfl
        | cons h3 hprev =>
          rename_i t3 t3' prev prev'
          have third : Exc.Rel (StateRel S) (thirdBashforthO A s t0 t3 t2 t1 dt)
              (thirdBashforth s' t0' t3' t2' t1' dt) := by
            unfold thirdBashforthO thirdBashforth
            rw [KeyRel.keys h0]
            refine stepKeysO_rel (fun k => ?_) _
            refine Exc.Rel.bind (StateRel.da h k) (fun x y hxy => ?_)
            refine Exc.Rel.bind (KeyRel.get h1 k) (fun v1 w1 hv1 => ?_)
            refine Exc.Rel.bind (KeyRel.get h2 k) (fun v2 w2 hv2 => ?_)
            refine Exc.Rel.bind (hA.subTT (hA.smulT hv1 _) (hA.smulT hv2 _)) (fun d e hde => ?_)
            refine Exc.Rel.bind (KeyRel.get h3 k) (fun v3 w3 hv3 => ?_)
            refine Exc.Rel.bind (hA.addTT hde (hA.smulT hv3 _)) (fun d e hde => ?_)
            exact hA.addST hxy (hA.smulT hde _)
          cases hprev with
          | nil =>
            match n with
            | 0 => rfl
            | 1 => exact stepEulerO_rel hA h h1 dt
            | 2 => exact second
            | 3 => exact third
            | 4 => rfl
            | n + 5 => rfl
          | cons h4 hprev =>
            rename_i t4 t4' prev prev'
            match n with
            | 0 => rfl
            | 1 => exact stepEulerO_rel hA h h1 dt
            | 2 => exact second
            | 3 => exact third
            | 4 =>
              show Exc.Rel (StateRel S) (fourthBashforthO A s t0 t4 t3 t2 t1 dt)
                (fourthBashforth s' t0' t4' t3' t2' t1' dt)
              unfold fourthBashforthO fourthBashforth
              rw [KeyRel.keys h0]
              refine stepKeysO_rel (fun k => ?_) _
              refine Exc.Rel.bind (StateRel.da h k) (fun x y hxy => ?_)
              refine Exc.Rel.bind (KeyRel.get h1 k) (fun v1 w1 hv1 => ?_)
              refine Exc.Rel.bind (KeyRel.get h2 k) (fun v2 w2 hv2 => ?_)
              refine Exc.Rel.bind (hA.subTT (hA.smulT hv1 _) (hA.smulT hv2 _)) (fun d e hde => ?_)
              refine Exc.Rel.bind (KeyRel.get h3 k) (fun v3 w3 hv3 => ?_)
              refine Exc.Rel.bind (hA.addTT hde (hA.smulT hv3 _)) (fun d e hde => ?_)
              refine Exc.Rel.bind (KeyRel.get h4 k) (fun v4 w4 hv4 => ?_)
              refine Exc.Rel.bind (hA.subTT hde (hA.smulT hv4 _)) (fun d e hde => ?_)
              exact hA.addST hxy (hA.smulT hde _)
            | n + 5 => rfl

/-- **AdamsBashforth over other arrays.**  If the arrays of a state and of tendencies stand for
DataArrays, and so do the tendencies in the stepper's memory, a call gives diagnostics and a new
state that stand for those of the call with the DataArrays, or raises the same exception; in
either case the memories still correspond. -/
theorem ab_over (hA : StandFor R A S T W) {σ : Type} {p : ProgOver σ V} {p' : Prog σ} (hp : ProgRel S T W p p')
    {ab : ABOver V} {ab' : AB} (hab : ABOverRel T ab ab') (s : σ) {state : EState V} {state' : State}
    (hs : StateRel S state state') (dt : Int) :
    ABOverRel T (ABOver.call A p ab s state dt).1 (AB.call R p' ab' s state' dt).1 ∧
    (ABOver.call A p ab s state dt).2.1 = (AB.call R p' ab' s state' dt).2.1 ∧
    StepRel S W (ABOver.call A p ab s state dt).2.2 (AB.call R p' ab' s state' dt).2.2 := by
  obtain ⟨order, timestep, hist⟩ := ab
  obtain ⟨order', timestep', hist'⟩ := ab'
  obtain ⟨h1, h2, h3⟩ := hab
  simp only at h1 h2 h3
  subst h1 h2
  unfold ABOver.call AB.call
  dsimp only
  obtain ⟨hw, hres⟩ := hp s state state' dt hs
  by_cases ht : timestep = none ∨ timestep = some dt
  · simp only [if_pos ht]
    revert hres
    rw [hw]
    generalize (p s state dt).2 = x
    generalize (p' s state' dt).2 = y
    intro hres
    cases x with
    | error e =>
      cases y with
      | error e' => exact ⟨⟨rfl, rfl, h3⟩, rfl, hres⟩
      | ok b => exact hres.elim
    | ok r =>
      cases y with
      | error e' => exact hres.elim
      | ok r' =>
        have hc := convertTendenciesO_rel hA hs hres.1
        dsimp only
        revert hc
        generalize convertTendenciesO A state r.1 = x
        generalize convertTendencies R state' r'.1 = y
        intro hc
        cases x with
        | error e =>
          cases y with
          | error e' => exact ⟨⟨rfl, rfl, h3⟩, rfl, hc⟩
          | ok b => exact hc.elim
        | ok t =>
          cases y with
          | error e' => exact hc.elim
          | ok t' =>
            have hh : List.Forall₂ (KeyRel T) (hist ++ [t]) (hist' ++ [t']) :=
              List.rel_append h3 (List.Forall₂.cons hc List.Forall₂.nil)
            have hps := performStepO_rel hA hs order hh dt
            dsimp only
            revert hps
            generalize performStepO A order (hist ++ [t]) state dt = x
            generalize performStep order (hist' ++ [t']) state' dt = y
            intro hps
            cases x with
            | error e =>
              cases y with
              | error e' => exact ⟨⟨rfl, rfl, hh⟩, rfl, hps⟩
              | ok b => exact hps.elim
            | ok n =>
              cases y with
              | error e' => exact hps.elim
              | ok n' =>
                refine ⟨?_, rfl, hres.2, copyUntouchedO_rel hs hps⟩
                rw [hh.length_eq]
                by_cases hlen : (hist' ++ [t']).length = order
                · simp only [if_pos hlen]
                  refine ⟨rfl, rfl, ?_⟩
                  cases hh' : hist ++ [t] with
                  | nil => simp at hh'
                  | cons u us =>
                    cases hh'' : hist' ++ [t'] with
                    | nil => simp at hh''
                    | cons w ws =>
                      rw [hh', hh''] at hh
                      cases hh with
                      | cons _ ht => exact ht
                · simp only [if_neg hlen]
                  exact ⟨rfl, rfl, hh⟩
  · simp only [if_neg ht]
    exact ⟨⟨rfl, rfl, h3⟩, trivial, rfl⟩

theorem leapfrogEntryO_rel (hA : StandFor R A S T W) (strength alpha : Rat) {k : String} {o x t : V}
    {o' x' t' : DataArray} (ho : S k o o') (hx : S k x x') (ht : T k t t') (dt : Int) :
    Exc.Rel (fun a b => S k a.1 b.1 ∧ Exc.Rel (S k) a.2 b.2) (leapfrogEntryO A strength alpha o x t dt)
      (leapfrogEntry strength alpha o' x' t' dt) := by
  unfold leapfrogEntryO leapfrogEntry
  refine Exc.Rel.bind (hA.addST ho (hA.smulT (hA.smulT ht _) _)) (fun n n' hn => ?_)
  refine Exc.Rel.bind (hA.subSS ho (hA.smulS hx _)) (fun d d' hd => ?_)
  refine Exc.Rel.bind (hA.addSS hd hn) (fun d d' hd => ?_)
  dsimp only
  refine Exc.Rel.bind (hA.iadd hx (hA.smulS (hA.smulS hd _) _)) (fun y y' hy => ?_)
  refine ⟨hy, ?_⟩
  dsimp only
  by_cases h1 : alpha ≠ 1
  · simp only [if_pos h1]
    exact hA.iadd hn (hA.smulS (hA.smulS hd _) _)
  · simp only [if_neg h1]
    exact hn

theorem stepLeapfrogO_rel (hA : StandFor R A S T W) (strength alpha : Rat) {o : EState V} {o' : State}
    (ho : StateRel S o o') {t : Dict V} {t' : Dict DataArray} (ht : KeyRel T t t') (dt : Int) (ks : List String)
    {s : EState V} {s' : State} (hs : StateRel S s s') {n : EState V} {n' : State} (hn : StateRel S n n') :
    StateRel S (stepLeapfrogO A strength alpha o t dt ks s n).1 (stepLeapfrog strength alpha o' t' dt ks s' n').1 ∧
    Exc.Rel (StateRel S) (stepLeapfrogO A strength alpha o t dt ks s n).2
      (stepLeapfrog strength alpha o' t' dt ks s' n').2 := by
  induction ks generalizing s s' n n' with
  | nil => exact ⟨hs, hn⟩
  | cons k ks ih =>
    unfold stepLeapfrogO stepLeapfrog
    have he : Exc.Rel (fun a b => S k a.1 b.1 ∧ Exc.Rel (S k) a.2 b.2)
        (EState.da o k >>= fun o => EState.da s k >>= fun x => t.get k >>= fun v =>
          leapfrogEntryO A strength alpha o x v dt)
        (State.da o' k >>= fun o => State.da s' k >>= fun x => t'.get k >>= fun v =>
          leapfrogEntry strength alpha o x v dt) := by
      refine Exc.Rel.bind (StateRel.da ho k) (fun a b hab => ?_)
      refine Exc.Rel.bind (StateRel.da hs k) (fun x y hxy => ?_)
      refine Exc.Rel.bind (KeyRel.get ht k) (fun u w huw => ?_)
      exact leapfrogEntryO_rel hA strength alpha hab hxy huw dt
    revert he
    generalize (EState.da o k >>= fun o => EState.da s k >>= fun x => t.get k >>= fun v =>
          leapfrogEntryO A strength alpha o x v dt) = x
    generalize (State.da o' k >>= fun o => State.da s' k >>= fun x => t'.get k >>= fun v =>
          leapfrogEntry strength alpha o x v dt) = y
    intro he
    cases x with
    | error e =>
      cases y with
      | error e' => exact ⟨hs, he⟩
      | ok b => exact he.elim
    | ok r =>
      cases y with
      | error e' => exact he.elim
      | ok r' =>
        obtain ⟨r1, r2⟩ := r
        obtain ⟨r1', r2'⟩ := r'
        obtain ⟨hr1, hr2⟩ := he
        simp only at hr1 hr2
        dsimp only
        have hs' : StateRel S (Dict.set s k (.da r1)) (Dict.set s' k (.da r1')) := KeyRel.set hs k hr1
        cases r2 with
        | error e =>
          cases r2' with
          | error e' => exact ⟨hs', hr2⟩
          | ok b => exact hr2.elim
        | ok m =>
          cases r2' with
          | error e' => exact hr2.elim
          | ok m' => exact ih hs' (KeyRel.set hn k hr2)

/-- **Leapfrog over other arrays.**  The same for Leapfrog; the state the caller passed is left
corresponding too (the filter changes it). -/
theorem leapfrog_over (hA : StandFor R A S T W) {σ : Type} {p : ProgOver σ V} {p' : Prog σ}
    (hp : ProgRel S T W p p') {lf : LFOver V} {lf' : LF} (hlf : LFOverRel S lf lf') (s : σ) {state : EState V}
    {state' : State} (hs : StateRel S state state') (dt : Int) :
    LFOverRel S (LFOver.call A p lf s state dt).1 (LF.call R p' lf' s state' dt).1 ∧
    (LFOver.call A p lf s state dt).2.1 = (LF.call R p' lf' s state' dt).2.1 ∧
    StateRel S (LFOver.call A p lf s state dt).2.2.1 (LF.call R p' lf' s state' dt).2.2.1 ∧
    StepRel S W (LFOver.call A p lf s state dt).2.2.2 (LF.call R p' lf' s state' dt).2.2.2 := by
  obtain ⟨strength, alpha, timestep, old⟩ := lf
  obtain ⟨strength', alpha', timestep', old'⟩ := lf'
  obtain ⟨h1, h2, h3, h4⟩ := hlf
  simp only at h1 h2 h3 h4
  subst h1 h2 h3
  unfold LFOver.call LF.call
  dsimp only
  obtain ⟨hw, hres⟩ := hp s state state' dt hs
  by_cases ht : timestep = none ∨ timestep = some dt
  · simp only [if_pos ht]
    revert hres
    rw [hw]
    generalize (p s state dt).2 = x
    generalize (p' s state' dt).2 = y
    intro hres
    cases x with
    | error e =>
      cases y with
      | error e' => exact ⟨⟨rfl, rfl, rfl, h4⟩, rfl, hs, hres⟩
      | ok b => exact hres.elim
    | ok r =>
      cases y with
      | error e' => exact hres.elim
      | ok r' =>
        have hc := convertTendenciesO_rel hA hs hres.1
        dsimp only
        revert hc
        generalize convertTendenciesO A state r.1 = x
        generalize convertTendencies R state' r'.1 = y
        intro hc
        cases x with
        | error e =>
          cases y with
          | error e' => exact ⟨⟨rfl, rfl, rfl, h4⟩, rfl, hs, hc⟩
          | ok b => exact hc.elim
        | ok t =>
          cases y with
          | error e' => exact hc.elim
          | ok t' =>
            have hc : KeyRel T t t' := hc
            dsimp only
            cases old with
            | none =>
              cases old' with
              | some o' => exact h4.elim
              | none =>
                dsimp only
                have he := stepEulerO_rel hA hs hc dt
                revert he
                generalize stepEulerO A state t dt = x
                generalize stepEuler state' t' dt = y
                intro he
                cases x with
                | error e =>
                  cases y with
                  | error e' => exact ⟨⟨rfl, rfl, rfl, h4⟩, rfl, hs, he⟩
                  | ok b => exact he.elim
                | ok n =>
                  cases y with
                  | error e' => exact he.elim
                  | ok n' => exact ⟨⟨rfl, rfl, rfl, hs⟩, rfl, hs, hres.2, copyUntouchedO_rel hs he⟩
            | some o =>
              cases old' with
              | none => exact h4.elim
              | some o' =>
                dsimp only
                have he := stepLeapfrogO_rel hA strength alpha h4 hc dt t.keys hs
                  (n := []) (n' := []) List.Forall₂.nil
                rw [← KeyRel.keys hc]
                revert he
                generalize stepLeapfrogO A strength alpha o t dt t.keys state [] = x
                generalize stepLeapfrog strength alpha o' t' dt t.keys state' [] = y
                intro he
                obtain ⟨x1, x2⟩ := x
                obtain ⟨y1, y2⟩ := y
                obtain ⟨he1, he2⟩ := he
                simp only at he1 he2
                cases x2 with
                | error e =>
                  cases y2 with
                  | error e' => exact ⟨⟨rfl, rfl, rfl, h4⟩, rfl, he1, he2⟩
                  | ok b => exact he2.elim
                | ok n =>
                  cases y2 with
                  | error e' => exact he2.elim
                  | ok n' => exact ⟨⟨rfl, rfl, rfl, he1⟩, rfl, he1, hres.2, copyUntouchedO_rel he1 he2⟩
  · simp only [if_neg ht]
    exact ⟨⟨rfl, rfl, rfl, h4⟩, trivial, hs, rfl⟩

theorem eulerCallO_rel (hA : StandFor R A S T W) {σ : Type} {p : ProgOver σ V} {p' : Prog σ}
    (hp : ProgRel S T W p p') {ab : ABOver V} {ab' : AB} (hab : ABOverRel T ab ab') (s : σ) {state : EState V}
    {state' : State} (hs : StateRel S state state') (dt : Int) :
    ABOverRel T (eulerCallO A p ab s state dt).1 (eulerCall R p' ab' s state' dt).1 ∧
    (eulerCallO A p ab s state dt).2.1 = (eulerCall R p' ab' s state' dt).2.1 ∧
    StepRel S W (eulerCallO A p ab s state dt).2.2 (eulerCall R p' ab' s state' dt).2.2 := by
  obtain ⟨h1, h2, h3⟩ := ab_over hA hp hab s hs dt
  refine ⟨h1, h2, ?_⟩
  refine Exc.Rel.bind h3 (fun x y hxy => ?_)
  exact ⟨hxy.1, copyUntouchedO_rel hs hxy.2⟩

/-- **SSPRungeKutta over other arrays.** -/
theorem ssprk_over (hA : StandFor R A S T W) {σ : Type} {p : ProgOver σ V} {p' : Prog σ}
    (hp : ProgRel S T W p p') (three : Bool) {ab : ABOver V} {ab' : AB} (hab : ABOverRel T ab ab') (s : σ)
    {state : EState V} {state' : State} (hs : StateRel S state state') (dt : Int) :
    ABOverRel T (ssprkCallO A p three ab s state dt).1 (ssprkCall R p' three ab' s state' dt).1 ∧
    (ssprkCallO A p three ab s state dt).2.1 = (ssprkCall R p' three ab' s state' dt).2.1 ∧
    StepRel S W (ssprkCallO A p three ab s state dt).2.2 (ssprkCall R p' three ab' s state' dt).2.2 := by
  unfold ssprkCallO ssprkCall
  cases three with
  | false =>
    simp only [Bool.false_eq_true, if_false]
    unfold ssprk2O ssprk2
    have h1 := eulerCallO_rel hA hp hab s hs dt
    revert h1
    generalize eulerCallO A p ab s state dt = x
    generalize eulerCall R p' ab' s state' dt = y
    intro h1
    obtain ⟨x1, x2, x3⟩ := x
    obtain ⟨y1, y2, y3⟩ := y
    obtain ⟨ha, hb, hc⟩ := h1
    simp only at ha hb hc
    subst hb
    cases x3 with
    | error e =>
      cases y3 with
      | error e' => exact ⟨ha, rfl, hc⟩
      | ok b => exact hc.elim
    | ok r =>
      cases y3 with
      | error e' => exact hc.elim
      | ok r' =>
        obtain ⟨d, n⟩ := r
        obtain ⟨d', n'⟩ := r'
        obtain ⟨hd, hn⟩ := hc
        simp only at hd hn
        dsimp only
        have h2 := eulerCallO_rel hA hp ha x2 hn dt
        revert h2
        generalize eulerCallO A p x1 x2 n dt = x
        generalize eulerCall R p' y1 x2 n' dt = y
        intro h2
        obtain ⟨x1, x2, x3⟩ := x
        obtain ⟨y1, y2, y3⟩ := y
        obtain ⟨ha, hb, hc⟩ := h2
        simp only at ha hb hc
        subst hb
        cases x3 with
        | error e =>
          cases y3 with
          | error e' => exact ⟨ha, rfl, hc⟩
          | ok b => exact hc.elim
        | ok r =>
          cases y3 with
          | error e' => exact hc.elim
          | ok r' =>
            refine ⟨ha, rfl, ?_⟩
            refine Exc.Rel.bind (addStatesO_rel hA hc.2 hs) (fun x y hxy => ?_)
            refine Exc.Rel.bind (scaleStateO_rel hA _ hxy) (fun u w huw => ?_)
            exact ⟨hd, huw⟩
  | true =>
    simp only [if_true]
    unfold ssprk3O ssprk3
    have h1 := eulerCallO_rel hA hp hab s hs dt
    revert h1
    generalize eulerCallO A p ab s state dt = x
    generalize eulerCall R p' ab' s state' dt = y
    intro h1
    obtain ⟨x1, x2, x3⟩ := x
    obtain ⟨y1, y2, y3⟩ := y
    obtain ⟨ha, hb, hc⟩ := h1
    simp only at ha hb hc
    subst hb
    cases x3 with
    | error e =>
      cases y3 with
      | error e' => exact ⟨ha, rfl, hc⟩
      | ok b => exact hc.elim
    | ok r =>
      cases y3 with
      | error e' => exact hc.elim
      | ok r' =>
        obtain ⟨d, n⟩ := r
        obtain ⟨d', n'⟩ := r'
        obtain ⟨hd, hn⟩ := hc
        simp only at hd hn
        dsimp only
        have h2 := eulerCallO_rel hA hp ha x2 hn dt
        revert h2
        generalize eulerCallO A p x1 x2 n dt = x
        generalize eulerCall R p' y1 x2 n' dt = y
        intro h2
        obtain ⟨x1, x2, x3⟩ := x
        obtain ⟨y1, y2, y3⟩ := y
        obtain ⟨ha, hb, hc⟩ := h2
        simp only at ha hb hc
        subst hb
        cases x3 with
        | error e =>
          cases y3 with
          | error e' => exact ⟨ha, rfl, hc⟩
          | ok b => exact hc.elim
        | ok r =>
          cases y3 with
          | error e' => exact hc.elim
          | ok r' =>
            obtain ⟨d1, m⟩ := r
            obtain ⟨d1', m'⟩ := r'
            obtain ⟨hd1, hm⟩ := hc
            simp only at hd1 hm
            dsimp only
            have h3 : Exc.Rel (StateRel S) (scaleStateO A (3 / 4) state >>= fun x => scaleStateO A (1 / 4) m >>= fun y =>
                addStatesO A x y) (scaleState (3 / 4) state' >>= fun x => scaleState (1 / 4) m' >>= fun y =>
                addStates x y) := by
              refine Exc.Rel.bind (scaleStateO_rel hA _ hs) (fun x y hxy => ?_)
              refine Exc.Rel.bind (scaleStateO_rel hA _ hm) (fun u w huw => ?_)
              exact addStatesO_rel hA huw hxy
            revert h3
            generalize (scaleStateO A (3 / 4) state >>= fun x => scaleStateO A (1 / 4) m >>= fun y =>
                addStatesO A x y) = x
            generalize (scaleState (3 / 4) state' >>= fun x => scaleState (1 / 4) m' >>= fun y =>
                addStates x y) = y
            intro h3
            cases x with
            | error e =>
              cases y with
              | error e' => exact ⟨ha, rfl, h3⟩
              | ok b => exact h3.elim
            | ok m2 =>
              cases y with
              | error e' => exact h3.elim
              | ok m2' =>
                have h3 : StateRel S m2 m2' := h3
                dsimp only
                have h4 := eulerCallO_rel hA hp ha x2 h3 dt
                revert h4
                generalize eulerCallO A p x1 x2 m2 dt = x
                generalize eulerCall R p' y1 x2 m2' dt = y
                intro h4
                obtain ⟨x1, x2, x3⟩ := x
                obtain ⟨y1, y2, y3⟩ := y
                obtain ⟨ha, hb, hc⟩ := h4
                simp only at ha hb hc
                subst hb
                cases x3 with
                | error e =>
                  cases y3 with
                  | error e' => exact ⟨ha, rfl, hc⟩
                  | ok b => exact hc.elim
                | ok r =>
                  cases y3 with
                  | error e' => exact hc.elim
                  | ok r' =>
                    refine ⟨ha, rfl, ?_⟩
                    refine Exc.Rel.bind (scaleStateO_rel hA _ hs) (fun x y hxy => ?_)
                    refine Exc.Rel.bind (scaleStateO_rel hA _ hc.2) (fun u w huw => ?_)
                    refine Exc.Rel.bind (addStatesO_rel hA huw hxy) (fun u w huw => ?_)
                    exact ⟨hd, huw⟩

theorem netTendencyO_rel (hA : StandFor R A S T W) (inProps : PropDict) {s : EState V} {s' : State}
    (hs : StateRel S s s') {n : EState V} {n' : State} (hn : StateRel S n n') (dt : Int) (q : String) :
    Exc.Rel W (netTendencyO A inProps s n dt q) (netTendency R inProps s' n' dt q) := by
  unfold netTendencyO netTendency
  refine Exc.Rel.bind (Exc.Rel.of_eq rfl) (fun p p' hpp => ?_)
  subst hpp
  refine Exc.Rel.bind (Exc.Rel.of_eq rfl) (fun u u' huu => ?_)
  subst huu
  refine Exc.Rel.bind (StateRel.da hn q) (fun a a' ha => ?_)
  refine Exc.Rel.bind (hA.toUnitsS ha u) (fun a a' ha => ?_)
  refine Exc.Rel.bind (StateRel.da hs q) (fun b b' hb => ?_)
  refine Exc.Rel.bind (hA.toUnitsS hb u) (fun b b' hb => ?_)
  refine Exc.Rel.bind (hA.subSS ha hb) (fun d d' hd => ?_)
  exact hA.diag (hA.setAttrs (hA.divide hd _) _)

theorem insertNetO_rel (hA : StandFor R A S T W) (inProps : PropDict) (inst : String) {s : EState V} {s' : State}
    (hs : StateRel S s s') {n : EState V} {n' : State} (hn : StateRel S n n') (dt : Int) (qs : List String)
    {d : Dict V} {d' : Dict DataArray} (hd : DictRel W d d') :
    Exc.Rel (DictRel W) (insertNetO A inProps inst s n dt qs d) (insertNet R inProps inst s' n' dt qs d') := by
  induction qs generalizing d d' with
  | nil => exact hd
  | cons q qs ih =>
    unfold insertNetO insertNet
    rw [DictRel.keys hd]
    by_cases h : tendencyName q inst ∈ Dict.keys d'
    · rw [if_pos h, if_pos h]; rfl
    · rw [if_neg h, if_neg h]
      refine Exc.Rel.bind (netTendencyO_rel hA inProps hs hn dt q) (fun x y hxy => ?_)
      exact ih (DictRel.set hd _ hxy)

/-- **Any time stepper over other arrays**, called by its user (`TendencyStepper.__call__`), with
or without tendencies in diagnostics: if its `_call` keeps the correspondence, so does the call. -/
theorem stepper_over (hA : StandFor R A S T W) {σ τ τ' : Type} (M : τ → τ' → Prop) (inProps outProps : PropDict)
    (inst : String) (tid : Bool)
    {call : τ → σ → EState V → Int → τ × σ × EState V × Except Err (Dict V × EState V)}
    {call' : τ' → σ → State → Int → τ' × σ × State × Except Err (Dict DataArray × State)}
    {x : τ} {x' : τ'} (s : σ) {state : EState V} {state' : State} (dt : Int)
    (hcall : M (call x s state dt).1 (call' x' s state' dt).1 ∧
      (call x s state dt).2.1 = (call' x' s state' dt).2.1 ∧
      StateRel S (call x s state dt).2.2.1 (call' x' s state' dt).2.2.1 ∧
      StepRel S W (call x s state dt).2.2.2 (call' x' s state' dt).2.2.2) :
    let r := tsCallO A inProps outProps inst tid call x s state dt
    let r' := tsCall R inProps outProps inst tid call' x' s state' dt
    M r.1 r'.1 ∧ r.2.1 = r'.2.1 ∧ StateRel S r.2.2.1 r'.2.2.1 ∧ StepRel S W r.2.2.2 r'.2.2.2 := by
  obtain ⟨h1, h2, h3, h4⟩ := hcall
  refine ⟨h1, h2, h3, ?_⟩
  refine Exc.Rel.bind h4 (fun a b hab => ?_)
  have hn := copyUntouchedO_rel h3 hab.2
  dsimp only
  cases tid with
  | false =>
    simp only [Bool.false_eq_true, if_false]
    refine Exc.Rel.bind (P := DictRel W) hab.1 (fun d d' hd => ?_)
    exact ⟨hd, hn⟩
  | true =>
    simp only [if_true]
    refine Exc.Rel.bind (insertNetO_rel hA inProps inst h3 hn dt outProps.keys hab.1) (fun d d' hd => ?_)
    exact ⟨hd, hn⟩

/-- Non-vacuity: DataArrays stand for themselves, so over DataArrays these functions are those of
`Verif/Model/TimeSteppers.lean`. -/
theorem dataArray_stand (R : Registry) :
    StandFor R (dataArrayArith R) (fun _ v a => v = a) (fun _ v a => v = a) (fun v a => v = a) where
  attrsS h := by subst h; rfl
  attrsT h := by subst h; rfl
  container _ := rfl
  toUnitsS h u := by subst h; exact Exc.Rel.of_eq rfl
  toUnitsT h u := by subst h; exact Exc.Rel.of_eq rfl
  smulS h c := by subst h; rfl
  smulT h c := by subst h; rfl
  setAttrs h m := by subst h; rfl
  divide h c := by subst h; rfl
  addSS h h' := by subst h h'; exact Exc.Rel.of_eq rfl
  addST h h' := by subst h h'; exact Exc.Rel.of_eq rfl
  addTT h h' := by subst h h'; exact Exc.Rel.of_eq rfl
  subSS h h' := by subst h h'; exact Exc.Rel.of_eq rfl
  subTT h h' := by subst h h'; exact Exc.Rel.of_eq rfl
  iadd h h' := by subst h h'; exact Exc.Rel.of_eq rfl
  diag h := h

end Verif

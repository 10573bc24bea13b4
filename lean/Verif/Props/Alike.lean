import Verif.Spec.Alike
import Verif.Model.Elements
import Verif.Model.Rounding
import Verif.Model.UpdateOver
import Verif.Props.SteppersOver
/-!
# Time steppers keep relations between arrays that the operations keep (C122)

The proofs of `Verif/Props/SteppersOver.lean` with any arrays in place of the DataArrays.
-/

namespace Verif

variable {V U : Type} {A : Arith V} {B : Arith U} {S T : String → V → U → Prop} {W : String → V → U → Prop}
  {θ : Int → Int → Prop} {σ σ' : Type} {Z : σ → σ' → Prop}

theorem PairRel.da {s : EState V} {s' : EState U} (h : PairRel θ S s s') (k : String) :
    Exc.Rel (S k) (EState.da s k) (EState.da s' k) := by
  unfold EState.da
  rcases KeyRel.get? h k with ⟨h1, h2⟩ | ⟨v, w, h1, h2, hr⟩
  · rw [h1, h2]; rfl
  · rw [h1, h2]
    cases v <;> cases w
    · exact hr
    · exact hr.elim
    · exact hr.elim
    · rfl

theorem copyUntouchedO_pair {s : EState V} {s' : EState U} (h : PairRel θ S s s') {n : EState V} {n' : EState U}
    (hn : PairRel θ S n n') : PairRel θ S (copyUntouchedO s n) (copyUntouchedO s' n') := by
  induction h generalizing n n' with
  | nil => exact hn
  | cons hab hl ih =>
    rename_i a b l l'
    obtain ⟨ka, va⟩ := a
    obtain ⟨kb, vb⟩ := b
    obtain ⟨hk, hv⟩ := hab
    simp only at hk hv
    subst hk
    unfold copyUntouchedO
    rw [KeyRel.keys hn]
    by_cases e : ka ∈ Dict.keys n'
    · rw [if_pos e, if_pos e]; exact ih hn
    · rw [if_neg e, if_neg e]; exact ih (KeyRel.set hn ka hv)

theorem addStatesLoopO_pair (hA : Alike A B S T W) {s2 : EState V} {s2' : EState U} (h2 : PairRel θ S s2 s2')
    {s : EState V} {s' : EState U} (h : PairRel θ S s s') {n : EState V} {n' : EState U} (hn : PairRel θ S n n') :
    Exc.Rel (PairRel θ S) (addStatesLoopO A s2 s n) (addStatesLoopO B s2' s' n') := by
  induction h generalizing n n' with
  | nil => exact hn
  | cons hab hl ih =>
    rename_i a b l l'
    obtain ⟨ka, va⟩ := a
    obtain ⟨kb, vb⟩ := b
    obtain ⟨hk, hv⟩ := hab
    simp only at hk hv
    subst hk
    unfold addStatesLoopO
    by_cases e : ka = "time"
    · rw [if_pos e, if_pos e]; exact ih hn
    · rw [if_neg e, if_neg e]
      cases va <;> cases vb
      · refine Exc.Rel.bind (PairRel.da h2 ka) (fun x y hxy => ?_)
        refine Exc.Rel.bind (hA.addSS hv hxy) (fun u w huw => ?_)
        apply ih
        apply KeyRel.set hn ka
        rw [hA.attrsS hv]
        exact hA.setAttrs huw _
      · exact hv.elim
      · exact hv.elim
      · rfl

theorem timeEntryO_pair {s : EState V} {s' : EState U} (h : PairRel θ S s s') :
    PairRel θ S (timeEntryO s) (timeEntryO s') := by
  unfold timeEntryO
  rcases KeyRel.get? h "time" with ⟨h1, h2⟩ | ⟨v, w, h1, h2, hr⟩
  · rw [h1, h2]; exact List.Forall₂.nil
  · rw [h1, h2]; exact List.Forall₂.cons ⟨rfl, hr⟩ List.Forall₂.nil

theorem addStatesO_pair (hA : Alike A B S T W) {s2 : EState V} {s2' : EState U} (h2 : PairRel θ S s2 s2')
    {s : EState V} {s' : EState U} (h : PairRel θ S s s') :
    Exc.Rel (PairRel θ S) (addStatesO A s s2) (addStatesO B s' s2') :=
  addStatesLoopO_pair hA h2 h (timeEntryO_pair h)

theorem scaleStateLoopO_pair (hA : Alike A B S T W) (c : Rat)
    {s : EState V} {s' : EState U} (h : PairRel θ S s s') {n : EState V} {n' : EState U} (hn : PairRel θ S n n') :
    Exc.Rel (PairRel θ S) (scaleStateLoopO A c s n) (scaleStateLoopO B c s' n') := by
  induction h generalizing n n' with
  | nil => exact hn
  | cons hab hl ih =>
    rename_i a b l l'
    obtain ⟨ka, va⟩ := a
    obtain ⟨kb, vb⟩ := b
    obtain ⟨hk, hv⟩ := hab
    simp only at hk hv
    subst hk
    unfold scaleStateLoopO
    by_cases e : ka = "time"
    · rw [if_pos e, if_pos e]; exact ih hn
    · rw [if_neg e, if_neg e]
      cases va <;> cases vb
      · apply ih
        apply KeyRel.set hn ka
        rw [hA.attrsS hv]
        exact hA.setAttrs (hA.smulS hv c) _
      · exact hv.elim
      · exact hv.elim
      · rfl

theorem scaleStateO_pair (hA : Alike A B S T W) (c : Rat) {s : EState V} {s' : EState U} (h : PairRel θ S s s') :
    Exc.Rel (PairRel θ S) (scaleStateO A c s) (scaleStateO B c s') :=
  scaleStateLoopO_pair hA c h (timeEntryO_pair h)

theorem convertTendenciesO_pair (hA : Alike A B S T W) {s : EState V} {s' : EState U} (h : PairRel θ S s s')
    {t : Dict V} {t' : Dict U} (ht : KeyRel T t t') :
    Exc.Rel (KeyRel T) (convertTendenciesO A s t) (convertTendenciesO B s' t') := by
  induction ht with
  | nil => exact List.Forall₂.nil
  | cons hab hl ih =>
    rename_i a b l l'
    obtain ⟨ka, va⟩ := a
    obtain ⟨kb, vb⟩ := b
    obtain ⟨hk, hv⟩ := hab
    simp only at hk hv
    subst hk
    unfold convertTendenciesO
    have h1 : Exc.Rel (T ka) (convertTendencyO A s ka va) (convertTendencyO B s' ka vb) := by
      unfold convertTendencyO
      rw [hA.container hv, hA.attrsT hv]
      by_cases hcon : B.isContainer vb = true
      case neg => rw [if_neg hcon, if_neg hcon]; exact hv
      rw [if_pos hcon, if_pos hcon]
      cases (B.attrs vb).get? "units" with
      | none => exact hv
      | some u0 =>
        refine Exc.Rel.bind (PairRel.da h ka) (fun x y hxy => ?_)
        rw [hA.attrsS hxy]
        refine Exc.Rel.bind (Exc.Rel.of_eq rfl) (fun u w huw => ?_)
        subst huw
        exact hA.toUnitsT hv _
    refine Exc.Rel.bind h1 (fun x y hxy => ?_)
    refine Exc.Rel.bind ih (fun u w huw => ?_)
    exact List.Forall₂.cons ⟨rfl, hxy⟩ huw

theorem stepKeysO_pair {f : String → Except Err V} {f' : String → Except Err U}
    (hf : ∀ k, Exc.Rel (S k) (f k) (f' k)) (ks : List String) :
    Exc.Rel (PairRel θ S) (stepKeysO f ks) (stepKeysO f' ks) := by
  induction ks with
  | nil => exact List.Forall₂.nil
  | cons k ks ih =>
    unfold stepKeysO
    refine Exc.Rel.bind (hf k) (fun x y hxy => ?_)
    refine Exc.Rel.bind ih (fun u w huw => ?_)
    exact List.Forall₂.cons ⟨rfl, hxy⟩ huw

theorem stepEulerO_pair (hA : Alike A B S T W) {s : EState V} {s' : EState U} (h : PairRel θ S s s')
    {t : Dict V} {t' : Dict U} (ht : KeyRel T t t') (dt : Int) :
    Exc.Rel (PairRel θ S) (stepEulerO A s t dt) (stepEulerO B s' t' dt) := by
  unfold stepEulerO
  rw [KeyRel.keys ht]
  refine stepKeysO_pair (fun k => ?_) _
  refine Exc.Rel.bind (PairRel.da h k) (fun x y hxy => ?_)
  refine Exc.Rel.bind (KeyRel.get ht k) (fun u w huw => ?_)
  exact hA.addST hxy (hA.smulT huw _)

theorem performStepO_pair (hA : Alike A B S T W) {s : EState V} {s' : EState U} (h : PairRel θ S s s')
    (order : Nat) {l : List (Dict V)} {l' : List (Dict U)} (hl : List.Forall₂ (KeyRel T) l l') (dt : Int) :
    Exc.Rel (PairRel θ S) (performStepO A order l s dt) (performStepO B order l' s' dt) := by
  unfold performStepO
  have hr : List.Forall₂ (KeyRel T) l.reverse l'.reverse := List.rel_reverse hl
  rw [hl.length_eq]
  cases hl with
  | nil => rfl
  | cons h0 hrest =>
    rename_i t0 t0' rest rest'
    revert hr
    generalize (t0 :: rest).reverse = m
    generalize (t0' :: rest').reverse = m'
    intro hr
    cases hr with
    | nil => rfl
    | cons h1 hprev =>
      rename_i t1 t1' prev prev'
      dsimp only
      generalize min order (t0' :: rest').length = n
      cases hprev with
      | nil =>
        match n with
        | 0 => rfl
        | 1 => exact stepEulerO_pair hA h h1 dt
        | 2 => rfl
        | 3 => rfl
        | 4 => rfl
        | n + 5 => rfl
      | cons h2 hprev =>
        rename_i t2 t2' prev prev'
        have second : Exc.Rel (PairRel θ S) (secondBashforthO A s t0 t2 t1 dt) (secondBashforthO B s' t0' t2' t1' dt) := by
          unfold secondBashforthO
          rw [KeyRel.keys h0]
          refine stepKeysO_pair (fun k => ?_) _
          refine Exc.Rel.bind (PairRel.da h k) (fun x y hxy => ?_)
          refine Exc.Rel.bind (KeyRel.get h1 k) (fun v1 w1 hv1 => ?_)
          refine Exc.Rel.bind (KeyRel.get h2 k) (fun v2 w2 hv2 => ?_)
          refine Exc.Rel.bind (hA.subTT (hA.smulT hv1 _) (hA.smulT hv2 _)) (fun d e hde => ?_)
          exact hA.addST hxy (hA.smulT hde _)
        cases hprev with
        | nil =>
          match n with
          | 0 => rfl
          | 1 => exact stepEulerO_pair hA h h1 dt
          | 2 => exact second
          | 3 => rfl
          | 4 => rfl
          | n + 5 => rfl
        | cons h3 hprev =>
          rename_i t3 t3' prev prev'
          have third : Exc.Rel (PairRel θ S) (thirdBashforthO A s t0 t3 t2 t1 dt)
              (thirdBashforthO B s' t0' t3' t2' t1' dt) := by
            unfold thirdBashforthO
            rw [KeyRel.keys h0]
            refine stepKeysO_pair (fun k => ?_) _
            refine Exc.Rel.bind (PairRel.da h k) (fun x y hxy => ?_)
            refine Exc.Rel.bind (KeyRel.get h1 k) (fun v1 w1 hv1 => ?_)
            refine Exc.Rel.bind (KeyRel.get h2 k) (fun v2 w2 hv2 => ?_)
            refine Exc.Rel.bind (hA.subTT (hA.smulT hv1 _) (hA.smulT hv2 _)) (fun d e hde => ?_)
            refine Exc.Rel.bind (KeyRel.get h3 k) (fun v3 w3 hv3 => ?_)
            refine Exc.Rel.bind (hA.addTT hde (hA.smulT hv3 _)) (fun d e hde => ?_)
            exact hA.addST hxy (hA.smulT hde _)
          cases hprev with
          | nil =>
            match n with
            | 0 => rfl
            | 1 => exact stepEulerO_pair hA h h1 dt
            | 2 => exact second
            | 3 => exact third
            | 4 => rfl
            | n + 5 => rfl
          | cons h4 hprev =>
            rename_i t4 t4' prev prev'
            match n with
            | 0 => rfl
            | 1 => exact stepEulerO_pair hA h h1 dt
            | 2 => exact second
            | 3 => exact third
            | 4 =>
              show Exc.Rel (PairRel θ S) (fourthBashforthO A s t0 t4 t3 t2 t1 dt)
                (fourthBashforthO B s' t0' t4' t3' t2' t1' dt)
              unfold fourthBashforthO
              rw [KeyRel.keys h0]
              refine stepKeysO_pair (fun k => ?_) _
              refine Exc.Rel.bind (PairRel.da h k) (fun x y hxy => ?_)
              refine Exc.Rel.bind (KeyRel.get h1 k) (fun v1 w1 hv1 => ?_)
              refine Exc.Rel.bind (KeyRel.get h2 k) (fun v2 w2 hv2 => ?_)
              refine Exc.Rel.bind (hA.subTT (hA.smulT hv1 _) (hA.smulT hv2 _)) (fun d e hde => ?_)
              refine Exc.Rel.bind (KeyRel.get h3 k) (fun v3 w3 hv3 => ?_)
              refine Exc.Rel.bind (hA.addTT hde (hA.smulT hv3 _)) (fun d e hde => ?_)
              refine Exc.Rel.bind (KeyRel.get h4 k) (fun v4 w4 hv4 => ?_)
              refine Exc.Rel.bind (hA.subTT hde (hA.smulT hv4 _)) (fun d e hde => ?_)
              exact hA.addST hxy (hA.smulT hde _)
            | n + 5 => rfl

/-- **AdamsBashforth keeps the relation**: what it returns, or the exception, and its memory. -/
theorem ab_pair (hA : Alike A B S T W) {p : ProgOver σ V} {p' : ProgOver σ' U} (hp : ProgPair θ Z S T W p p')
    {ab : ABOver V} {ab' : ABOver U} (hab : ABPair T ab ab') {s : σ} {s' : σ'} (hz : Z s s') {state : EState V} {state' : EState U}
    (hs : PairRel θ S state state') (dt : Int) :
    ABPair T (ABOver.call A p ab s state dt).1 (ABOver.call B p' ab' s' state' dt).1 ∧
    Z (ABOver.call A p ab s state dt).2.1 (ABOver.call B p' ab' s' state' dt).2.1 ∧
    OutPair θ S W (ABOver.call A p ab s state dt).2.2 (ABOver.call B p' ab' s' state' dt).2.2 := by
  obtain ⟨order, timestep, hist⟩ := ab
  obtain ⟨order', timestep', hist'⟩ := ab'
  obtain ⟨h1, h2, h3⟩ := hab
  simp only at h1 h2 h3
  subst h1 h2
  unfold ABOver.call
  dsimp only
  obtain ⟨hw, hres⟩ := hp s s' state state' dt hz hs
  by_cases ht : timestep = none ∨ timestep = some dt
  · simp only [if_pos ht]
    revert hres
    generalize (p s state dt).2 = x
    generalize (p' s' state' dt).2 = y
    intro hres
    cases x with
    | error e =>
      cases y with
      | error e' => exact ⟨⟨rfl, rfl, h3⟩, hw, hres⟩
      | ok b => exact hres.elim
    | ok r =>
      cases y with
      | error e' => exact hres.elim
      | ok r' =>
        have hc := convertTendenciesO_pair hA hs hres.1
        dsimp only
        revert hc
        generalize convertTendenciesO A state r.1 = x
        generalize convertTendenciesO B state' r'.1 = y
        intro hc
        cases x with
        | error e =>
          cases y with
          | error e' => exact ⟨⟨rfl, rfl, h3⟩, hw, hc⟩
          | ok b => exact hc.elim
        | ok t =>
          cases y with
          | error e' => exact hc.elim
          | ok t' =>
            have hh : List.Forall₂ (KeyRel T) (hist ++ [t]) (hist' ++ [t']) :=
              List.rel_append h3 (List.Forall₂.cons hc List.Forall₂.nil)
            have hps := performStepO_pair hA hs order hh dt
            dsimp only
            revert hps
            generalize performStepO A order (hist ++ [t]) state dt = x
            generalize performStepO B order (hist' ++ [t']) state' dt = y
            intro hps
            cases x with
            | error e =>
              cases y with
              | error e' => exact ⟨⟨rfl, rfl, hh⟩, hw, hps⟩
              | ok b => exact hps.elim
            | ok n =>
              cases y with
              | error e' => exact hps.elim
              | ok n' =>
                refine ⟨?_, hw, hres.2, copyUntouchedO_pair hs hps⟩
                rw [hh.length_eq]
                by_cases hlen : (hist' ++ [t']).length = order
                · simp only [if_pos hlen]
                  refine ⟨rfl, rfl, ?_⟩
                  cases hh' : hist ++ [t] with
                  | nil => simp at hh'
                  | cons u us =>
                    cases hh'' : hist' ++ [t'] with
                    | nil => simp at hh''
                    | cons w ws =>
                      rw [hh', hh''] at hh
                      cases hh with
                      | cons _ ht => exact ht
                · simp only [if_neg hlen]
                  exact ⟨rfl, rfl, hh⟩
  · simp only [if_neg ht]
    exact ⟨⟨rfl, rfl, h3⟩, hz, rfl⟩

theorem leapfrogEntryO_pair (hA : Alike A B S T W) (strength alpha : Rat) {k : String} {o x t : V}
    {o' x' t' : U} (ho : S k o o') (hx : S k x x') (ht : T k t t') (dt : Int) :
    Exc.Rel (fun a b => S k a.1 b.1 ∧ Exc.Rel (S k) a.2 b.2) (leapfrogEntryO A strength alpha o x t dt)
      (leapfrogEntryO B strength alpha o' x' t' dt) := by
  unfold leapfrogEntryO
  refine Exc.Rel.bind (hA.addST ho (hA.smulT (hA.smulT ht _) _)) (fun n n' hn => ?_)
  refine Exc.Rel.bind (hA.subSS ho (hA.smulS hx _)) (fun d d' hd => ?_)
  refine Exc.Rel.bind (hA.addSS hd hn) (fun d d' hd => ?_)
  dsimp only
  refine Exc.Rel.bind (hA.iadd hx (hA.smulS (hA.smulS hd _) _)) (fun y y' hy => ?_)
  refine ⟨hy, ?_⟩
  dsimp only
  by_cases h1 : alpha ≠ 1
  · simp only [if_pos h1]
    exact hA.iadd hn (hA.smulS (hA.smulS hd _) _)
  · simp only [if_neg h1]
    exact hn

theorem stepLeapfrogO_pair (hA : Alike A B S T W) (strength alpha : Rat) {o : EState V} {o' : EState U}
    (ho : PairRel θ S o o') {t : Dict V} {t' : Dict U} (ht : KeyRel T t t') (dt : Int) (ks : List String)
    {s : EState V} {s' : EState U} (hs : PairRel θ S s s') {n : EState V} {n' : EState U} (hn : PairRel θ S n n') :
    PairRel θ S (stepLeapfrogO A strength alpha o t dt ks s n).1 (stepLeapfrogO B strength alpha o' t' dt ks s' n').1 ∧
    Exc.Rel (PairRel θ S) (stepLeapfrogO A strength alpha o t dt ks s n).2
      (stepLeapfrogO B strength alpha o' t' dt ks s' n').2 := by
  induction ks generalizing s s' n n' with
  | nil => exact ⟨hs, hn⟩
  | cons k ks ih =>
    unfold stepLeapfrogO
    have he : Exc.Rel (fun a b => S k a.1 b.1 ∧ Exc.Rel (S k) a.2 b.2)
        (EState.da o k >>= fun o => EState.da s k >>= fun x => t.get k >>= fun v =>
          leapfrogEntryO A strength alpha o x v dt)
        (EState.da o' k >>= fun o => EState.da s' k >>= fun x => t'.get k >>= fun v =>
          leapfrogEntryO B strength alpha o x v dt) := by
      refine Exc.Rel.bind (PairRel.da ho k) (fun a b hab => ?_)
      refine Exc.Rel.bind (PairRel.da hs k) (fun x y hxy => ?_)
      refine Exc.Rel.bind (KeyRel.get ht k) (fun u w huw => ?_)
      exact leapfrogEntryO_pair hA strength alpha hab hxy huw dt
    revert he
    generalize (EState.da o k >>= fun o => EState.da s k >>= fun x => t.get k >>= fun v =>
          leapfrogEntryO A strength alpha o x v dt) = x
    generalize (EState.da o' k >>= fun o => EState.da s' k >>= fun x => t'.get k >>= fun v =>
          leapfrogEntryO B strength alpha o x v dt) = y
    intro he
    cases x with
    | error e =>
      cases y with
      | error e' => exact ⟨hs, he⟩
      | ok b => exact he.elim
    | ok r =>
      cases y with
      | error e' => exact he.elim
      | ok r' =>
        obtain ⟨r1, r2⟩ := r
        obtain ⟨r1', r2'⟩ := r'
        obtain ⟨hr1, hr2⟩ := he
        simp only at hr1 hr2
        dsimp only
        have hs' : PairRel θ S (Dict.set s k (.da r1)) (Dict.set s' k (.da r1')) := KeyRel.set hs k hr1
        cases r2 with
        | error e =>
          cases r2' with
          | error e' => exact ⟨hs', hr2⟩
          | ok b => exact hr2.elim
        | ok m =>
          cases r2' with
          | error e' => exact hr2.elim
          | ok m' => exact ih hs' (KeyRel.set hn k hr2)

/-- **Leapfrog keeps the relation**, also for the state that it was passed. -/
theorem leapfrog_pair (hA : Alike A B S T W) {p : ProgOver σ V} {p' : ProgOver σ' U}
    (hp : ProgPair θ Z S T W p p') {lf : LFOver V} {lf' : LFOver U} (hlf : LFPair θ S lf lf') {s : σ} {s' : σ'} (hz : Z s s') {state : EState V}
    {state' : EState U} (hs : PairRel θ S state state') (dt : Int) :
    LFPair θ S (LFOver.call A p lf s state dt).1 (LFOver.call B p' lf' s' state' dt).1 ∧
    Z (LFOver.call A p lf s state dt).2.1 (LFOver.call B p' lf' s' state' dt).2.1 ∧
    PairRel θ S (LFOver.call A p lf s state dt).2.2.1 (LFOver.call B p' lf' s' state' dt).2.2.1 ∧
    OutPair θ S W (LFOver.call A p lf s state dt).2.2.2 (LFOver.call B p' lf' s' state' dt).2.2.2 := by
  obtain ⟨strength, alpha, timestep, old⟩ := lf
  obtain ⟨strength', alpha', timestep', old'⟩ := lf'
  obtain ⟨h1, h2, h3, h4⟩ := hlf
  simp only at h1 h2 h3 h4
  subst h1 h2 h3
  unfold LFOver.call
  dsimp only
  obtain ⟨hw, hres⟩ := hp s s' state state' dt hz hs
  by_cases ht : timestep = none ∨ timestep = some dt
  · simp only [if_pos ht]
    revert hres
    generalize (p s state dt).2 = x
    generalize (p' s' state' dt).2 = y
    intro hres
    cases x with
    | error e =>
      cases y with
      | error e' => exact ⟨⟨rfl, rfl, rfl, h4⟩, hw, hs, hres⟩
      | ok b => exact hres.elim
    | ok r =>
      cases y with
      | error e' => exact hres.elim
      | ok r' =>
        have hc := convertTendenciesO_pair hA hs hres.1
        dsimp only
        revert hc
        generalize convertTendenciesO A state r.1 = x
        generalize convertTendenciesO B state' r'.1 = y
        intro hc
        cases x with
        | error e =>
          cases y with
          | error e' => exact ⟨⟨rfl, rfl, rfl, h4⟩, hw, hs, hc⟩
          | ok b => exact hc.elim
        | ok t =>
          cases y with
          | error e' => exact hc.elim
          | ok t' =>
            have hc : KeyRel T t t' := hc
            dsimp only
            cases old with
            | none =>
              cases old' with
              | some o' => exact h4.elim
              | none =>
                dsimp only
                have he := stepEulerO_pair hA hs hc dt
                revert he
                generalize stepEulerO A state t dt = x
                generalize stepEulerO B state' t' dt = y
                intro he
                cases x with
                | error e =>
                  cases y with
                  | error e' => exact ⟨⟨rfl, rfl, rfl, h4⟩, hw, hs, he⟩
                  | ok b => exact he.elim
                | ok n =>
                  cases y with
                  | error e' => exact he.elim
                  | ok n' => exact ⟨⟨rfl, rfl, rfl, hs⟩, hw, hs, hres.2, copyUntouchedO_pair hs he⟩
            | some o =>
              cases old' with
              | none => exact h4.elim
              | some o' =>
                dsimp only
                have he := stepLeapfrogO_pair hA strength alpha h4 hc dt t.keys hs
                  (n := []) (n' := []) List.Forall₂.nil
                rw [← KeyRel.keys hc]
                revert he
                generalize stepLeapfrogO A strength alpha o t dt t.keys state [] = x
                generalize stepLeapfrogO B strength alpha o' t' dt t.keys state' [] = y
                intro he
                obtain ⟨x1, x2⟩ := x
                obtain ⟨y1, y2⟩ := y
                obtain ⟨he1, he2⟩ := he
                simp only at he1 he2
                cases x2 with
                | error e =>
                  cases y2 with
                  | error e' => exact ⟨⟨rfl, rfl, rfl, h4⟩, hw, he1, he2⟩
                  | ok b => exact he2.elim
                | ok n =>
                  cases y2 with
                  | error e' => exact he2.elim
                  | ok n' => exact ⟨⟨rfl, rfl, rfl, he1⟩, hw, he1, hres.2, copyUntouchedO_pair he1 he2⟩
  · simp only [if_neg ht]
    exact ⟨⟨rfl, rfl, rfl, h4⟩, hz, hs, rfl⟩

theorem eulerCallO_pair (hA : Alike A B S T W) {p : ProgOver σ V} {p' : ProgOver σ' U}
    (hp : ProgPair θ Z S T W p p') {ab : ABOver V} {ab' : ABOver U} (hab : ABPair T ab ab') {s : σ} {s' : σ'} (hz : Z s s') {state : EState V}
    {state' : EState U} (hs : PairRel θ S state state') (dt : Int) :
    ABPair T (eulerCallO A p ab s state dt).1 (eulerCallO B p' ab' s' state' dt).1 ∧
    Z (eulerCallO A p ab s state dt).2.1 (eulerCallO B p' ab' s' state' dt).2.1 ∧
    OutPair θ S W (eulerCallO A p ab s state dt).2.2 (eulerCallO B p' ab' s' state' dt).2.2 := by
  obtain ⟨h1, h2, h3⟩ := ab_pair hA hp hab hz hs dt
  refine ⟨h1, h2, ?_⟩
  refine Exc.Rel.bind h3 (fun x y hxy => ?_)
  exact ⟨hxy.1, copyUntouchedO_pair hs hxy.2⟩

/-- **SSPRungeKutta keeps the relation.** -/
theorem ssprk_pair (hA : Alike A B S T W) {p : ProgOver σ V} {p' : ProgOver σ' U}
    (hp : ProgPair θ Z S T W p p') (three : Bool) {ab : ABOver V} {ab' : ABOver U} (hab : ABPair T ab ab') {s : σ} {s' : σ'} (hz : Z s s')
    {state : EState V} {state' : EState U} (hs : PairRel θ S state state') (dt : Int) :
    ABPair T (ssprkCallO A p three ab s state dt).1 (ssprkCallO B p' three ab' s' state' dt).1 ∧
    Z (ssprkCallO A p three ab s state dt).2.1 (ssprkCallO B p' three ab' s' state' dt).2.1 ∧
    OutPair θ S W (ssprkCallO A p three ab s state dt).2.2 (ssprkCallO B p' three ab' s' state' dt).2.2 := by
  unfold ssprkCallO
  cases three with
  | false =>
    simp only [Bool.false_eq_true, if_false]
    unfold ssprk2O
    have h1 := eulerCallO_pair hA hp hab hz hs dt
    revert h1
    generalize eulerCallO A p ab s state dt = x
    generalize eulerCallO B p' ab' s' state' dt = y
    intro h1
    obtain ⟨x1, x2, x3⟩ := x
    obtain ⟨y1, y2, y3⟩ := y
    obtain ⟨ha, hb, hc⟩ := h1
    simp only at ha hb hc
    cases x3 with
    | error e =>
      cases y3 with
      | error e' => exact ⟨ha, hb, hc⟩
      | ok b => exact hc.elim
    | ok r =>
      cases y3 with
      | error e' => exact hc.elim
      | ok r' =>
        obtain ⟨d, n⟩ := r
        obtain ⟨d', n'⟩ := r'
        obtain ⟨hd, hn⟩ := hc
        simp only at hd hn
        dsimp only
        have h2 := eulerCallO_pair hA hp ha hb hn dt
        revert h2
        generalize eulerCallO A p x1 x2 n dt = x
        generalize eulerCallO B p' y1 y2 n' dt = y
        intro h2
        obtain ⟨x1, x2, x3⟩ := x
        obtain ⟨y1, y2, y3⟩ := y
        obtain ⟨ha, hb, hc⟩ := h2
        simp only at ha hb hc
        cases x3 with
        | error e =>
          cases y3 with
          | error e' => exact ⟨ha, hb, hc⟩
          | ok b => exact hc.elim
        | ok r =>
          cases y3 with
          | error e' => exact hc.elim
          | ok r' =>
            refine ⟨ha, hb, ?_⟩
            refine Exc.Rel.bind (addStatesO_pair hA hc.2 hs) (fun x y hxy => ?_)
            refine Exc.Rel.bind (scaleStateO_pair hA _ hxy) (fun u w huw => ?_)
            exact ⟨hd, huw⟩
  | true =>
    simp only [if_true]
    unfold ssprk3O
    have h1 := eulerCallO_pair hA hp hab hz hs dt
    revert h1
    generalize eulerCallO A p ab s state dt = x
    generalize eulerCallO B p' ab' s' state' dt = y
    intro h1
    obtain ⟨x1, x2, x3⟩ := x
    obtain ⟨y1, y2, y3⟩ := y
    obtain ⟨ha, hb, hc⟩ := h1
    simp only at ha hb hc
    cases x3 with
    | error e =>
      cases y3 with
      | error e' => exact ⟨ha, hb, hc⟩
      | ok b => exact hc.elim
    | ok r =>
      cases y3 with
      | error e' => exact hc.elim
      | ok r' =>
        obtain ⟨d, n⟩ := r
        obtain ⟨d', n'⟩ := r'
        obtain ⟨hd, hn⟩ := hc
        simp only at hd hn
        dsimp only
        have h2 := eulerCallO_pair hA hp ha hb hn dt
        revert h2
        generalize eulerCallO A p x1 x2 n dt = x
        generalize eulerCallO B p' y1 y2 n' dt = y
        intro h2
        obtain ⟨x1, x2, x3⟩ := x
        obtain ⟨y1, y2, y3⟩ := y
        obtain ⟨ha, hb, hc⟩ := h2
        simp only at ha hb hc
        cases x3 with
        | error e =>
          cases y3 with
          | error e' => exact ⟨ha, hb, hc⟩
          | ok b => exact hc.elim
        | ok r =>
          cases y3 with
          | error e' => exact hc.elim
          | ok r' =>
            obtain ⟨d1, m⟩ := r
            obtain ⟨d1', m'⟩ := r'
            obtain ⟨hd1, hm⟩ := hc
            simp only at hd1 hm
            dsimp only
            have h3 : Exc.Rel (PairRel θ S) (scaleStateO A (3 / 4) state >>= fun x => scaleStateO A (1 / 4) m >>= fun y =>
                addStatesO A x y) (scaleStateO B (3 / 4) state' >>= fun x => scaleStateO B (1 / 4) m' >>= fun y =>
                addStatesO B x y) := by
              refine Exc.Rel.bind (scaleStateO_pair hA _ hs) (fun x y hxy => ?_)
              refine Exc.Rel.bind (scaleStateO_pair hA _ hm) (fun u w huw => ?_)
              exact addStatesO_pair hA huw hxy
            revert h3
            generalize (scaleStateO A (3 / 4) state >>= fun x => scaleStateO A (1 / 4) m >>= fun y =>
                addStatesO A x y) = x
            generalize (scaleStateO B (3 / 4) state' >>= fun x => scaleStateO B (1 / 4) m' >>= fun y =>
                addStatesO B x y) = y
            intro h3
            cases x with
            | error e =>
              cases y with
              | error e' => exact ⟨ha, hb, h3⟩
              | ok b => exact h3.elim
            | ok m2 =>
              cases y with
              | error e' => exact h3.elim
              | ok m2' =>
                have h3 : PairRel θ S m2 m2' := h3
                dsimp only
                have h4 := eulerCallO_pair hA hp ha hb h3 dt
                revert h4
                generalize eulerCallO A p x1 x2 m2 dt = x
                generalize eulerCallO B p' y1 y2 m2' dt = y
                intro h4
                obtain ⟨x1, x2, x3⟩ := x
                obtain ⟨y1, y2, y3⟩ := y
                obtain ⟨ha, hb, hc⟩ := h4
                simp only at ha hb hc
                cases x3 with
                | error e =>
                  cases y3 with
                  | error e' => exact ⟨ha, hb, hc⟩
                  | ok b => exact hc.elim
                | ok r =>
                  cases y3 with
                  | error e' => exact hc.elim
                  | ok r' =>
                    refine ⟨ha, hb, ?_⟩
                    refine Exc.Rel.bind (scaleStateO_pair hA _ hs) (fun x y hxy => ?_)
                    refine Exc.Rel.bind (scaleStateO_pair hA _ hc.2) (fun u w huw => ?_)
                    refine Exc.Rel.bind (addStatesO_pair hA huw hxy) (fun u w huw => ?_)
                    exact ⟨hd, huw⟩

theorem netTendencyO_pair (hA : Alike A B S T W) (inProps : PropDict) {s : EState V} {s' : EState U}
    (hs : PairRel θ S s s') {n : EState V} {n' : EState U} (hn : PairRel θ S n n') (dt : Int) (q inst : String) :
    Exc.Rel (W (tendencyName q inst)) (netTendencyO A inProps s n dt q) (netTendencyO B inProps s' n' dt q) := by
  unfold netTendencyO
  refine Exc.Rel.bind (Exc.Rel.of_eq rfl) (fun p p' hpp => ?_)
  subst hpp
  refine Exc.Rel.bind (Exc.Rel.of_eq rfl) (fun u u' huu => ?_)
  subst huu
  refine Exc.Rel.bind (PairRel.da hn q) (fun a a' ha => ?_)
  refine Exc.Rel.bind (hA.toUnitsS ha u) (fun a a' ha => ?_)
  refine Exc.Rel.bind (PairRel.da hs q) (fun b b' hb => ?_)
  refine Exc.Rel.bind (hA.toUnitsS hb u) (fun b b' hb => ?_)
  refine Exc.Rel.bind (hA.subSS ha hb) (fun d d' hd => ?_)
  exact hA.diag (hA.setAttrs (hA.divide hd _) _) inst

theorem insertNetO_pair (hA : Alike A B S T W) (inProps : PropDict) (inst : String) {s : EState V} {s' : EState U}
    (hs : PairRel θ S s s') {n : EState V} {n' : EState U} (hn : PairRel θ S n n') (dt : Int) (qs : List String)
    {d : Dict V} {d' : Dict U} (hd : KeyRel W d d') :
    Exc.Rel (KeyRel W) (insertNetO A inProps inst s n dt qs d) (insertNetO B inProps inst s' n' dt qs d') := by
  induction qs generalizing d d' with
  | nil => exact hd
  | cons q qs ih =>
    unfold insertNetO
    rw [KeyRel.keys hd]
    by_cases h : tendencyName q inst ∈ Dict.keys d'
    · rw [if_pos h, if_pos h]; rfl
    · rw [if_neg h, if_neg h]
      refine Exc.Rel.bind (netTendencyO_pair hA inProps hs hn dt q inst) (fun x y hxy => ?_)
      exact ih (KeyRel.set hd _ hxy)

/-- `d.update(d')` -/
theorem KeyRel.update' {α β : Type} {r : String → α → β → Prop} {d : Dict α} {e : Dict β} {d' : Dict α} {e' : Dict β}
    (h : KeyRel r d e) (h' : KeyRel r d' e') : KeyRel r (d.update d') (e.update e') := by
  induction h' generalizing d e with
  | nil => exact h
  | cons hab hl ih =>
    rename_i a b l l'
    obtain ⟨ka, va⟩ := a
    obtain ⟨kb, vb⟩ := b
    obtain ⟨hk, hv'⟩ := hab
    simp only at hk hv'
    subst hk
    rw [Dict.update_cons, Dict.update_cons]
    exact ih (KeyRel.set h ka hv')

/-- **Calls by the user** (`TendencyStepper.__call__`) keep the relation if `_call` does. -/
theorem stepper_pair (hA : Alike A B S T W) {τ τ' : Type} (M : τ → τ' → Prop) (inProps outProps : PropDict)
    (inst : String) (tid : Bool)
    {call : τ → σ → EState V → Int → τ × σ × EState V × Except Err (Dict V × EState V)}
    {call' : τ' → σ' → EState U → Int → τ' × σ' × EState U × Except Err (Dict U × EState U)}
    {x : τ} {x' : τ'} {s : σ} {s' : σ'} {state : EState V} {state' : EState U} (dt : Int)
    (hcall : CallPair θ Z M S W (call x s state dt) (call' x' s' state' dt)) :
    CallPair θ Z M S W (tsCallO A inProps outProps inst tid call x s state dt)
      (tsCallO B inProps outProps inst tid call' x' s' state' dt) := by
  obtain ⟨h1, h2, h3, h4⟩ := hcall
  refine ⟨h1, h2, h3, ?_⟩
  refine Exc.Rel.bind h4 (fun a b hab => ?_)
  have hn := copyUntouchedO_pair h3 hab.2
  dsimp only
  cases tid with
  | false =>
    simp only [Bool.false_eq_true, if_false]
    refine Exc.Rel.bind (P := KeyRel W) hab.1 (fun d d' hd => ?_)
    exact ⟨hd, hn⟩
  | true =>
    simp only [if_true]
    refine Exc.Rel.bind (insertNetO_pair hA inProps inst h3 hn dt outProps.keys hab.1) (fun d d' hd => ?_)
    exact ⟨hd, hn⟩

theorem addIntoO_pair (hA : Alike A B S T W) {t : Dict V} {t' : Dict U} (ht : KeyRel T t t') {d : Dict V} {d' : Dict U}
    (hd : KeyRel T d d') : Exc.Rel (KeyRel T) (addIntoO A t d) (addIntoO B t' d') := by
  induction ht generalizing d d' with
  | nil => exact hd
  | cons hab hl ih =>
    rename_i a b l l'
    obtain ⟨ka, va⟩ := a
    obtain ⟨kb, vb⟩ := b
    obtain ⟨hk, hv⟩ := hab
    simp only at hk hv
    subst hk
    unfold addIntoO
    rcases KeyRel.get? hd ka with ⟨h1, h2⟩ | ⟨w, w', h1, h2, hw⟩
    · rw [h1, h2]; exact ih (KeyRel.set hd ka hv)
    · rw [h1, h2]
      dsimp only
      rw [hA.attrsT hw, hA.attrsT hv]
      cases (B.attrs w').get? "units" with
      | none => rfl
      | some u =>
        cases (B.attrs vb).get? "units" with
        | none => rfl
        | some u' =>
          refine Exc.Rel.bind (hA.toUnitsT hv u) (fun x y hxy => ?_)
          refine Exc.Rel.bind (hA.addTT hw hxy) (fun x y hxy => ?_)
          exact ih (KeyRel.set hd ka hxy)

/-- **Composites keep the relation** if their components do. -/
theorem composite_pair (hA : Alike A B S T W) {cs : List (ProgOver σ V)} {cs' : List (ProgOver σ' U)}
    (hc : List.Forall₂ (ProgPair θ Z S T W) cs cs') : ProgPair θ Z S T W (compositeO A cs) (compositeO B cs') := by
  intro s s' y y' dt hz hy
  unfold compositeO
  suffices h : ∀ t t' d d', KeyRel T t t' → KeyRel W d d' →
      Z (compositeLoopO A (cs.map fun p s => p s y dt) s t d).1 (compositeLoopO B (cs'.map fun p s => p s y' dt) s' t' d').1 ∧
      Exc.Rel (fun x y => KeyRel T x.1 y.1 ∧ KeyRel W x.2 y.2)
        (compositeLoopO A (cs.map fun p s => p s y dt) s t d).2 (compositeLoopO B (cs'.map fun p s => p s y' dt) s' t' d').2 from
    h [] [] [] [] List.Forall₂.nil List.Forall₂.nil
  induction hc generalizing s s' with
  | nil => exact fun t t' d d' ht hd => ⟨hz, ht, hd⟩
  | cons hp htail ih =>
    rename_i p p' cs cs'
    intro t t' d d' ht hd
    simp only [List.map_cons]
    unfold compositeLoopO
    obtain ⟨hw, hr⟩ := hp s s' y y' dt hz hy
    revert hr
    generalize (p s y dt).2 = r
    generalize (p' s' y' dt).2 = r'
    intro hr
    cases r with
    | error e =>
      cases r' with
      | error e' => exact ⟨hw, hr⟩
      | ok _ => exact hr.elim
    | ok r =>
      cases r' with
      | error e' => exact hr.elim
      | ok r' =>
        dsimp only
        have ha := addIntoO_pair hA hr.1 ht
        revert ha
        generalize addIntoO A r.1 t = x
        generalize addIntoO B r'.1 t' = x'
        intro ha
        cases x with
        | error e =>
          cases x' with
          | error e' => exact ⟨hw, ha⟩
          | ok _ => exact ha.elim
        | ok x =>
          cases x' with
          | error e' => exact ha.elim
          | ok x' => exact ih _ _ hw _ _ _ _ ha (KeyRel.update' hd hr.2)

/-- **Runs keep the relation**: if calls of the time stepper keep it, and so does what happens between the calls, then
after any number of steps the two runs end with related states, memories and worlds, or with the same exception. -/
theorem run_pair {τ τ' : Type} {M : τ → τ' → Prop}
    {call : τ → σ → EState V → Int → τ × σ × EState V × Except Err (Dict V × EState V)}
    {call' : τ' → σ' → EState U → Int → τ' × σ' × EState U × Except Err (Dict U × EState U)}
    (hcall : ∀ x x' s s' y y' dt, M x x' → Z s s' → PairRel θ S y y' →
      CallPair θ Z M S W (call x s y dt) (call' x' s' y' dt))
    {between : Dict V → EState V → EState V} {between' : Dict U → EState U → EState U}
    (hb : ∀ d d' y y', KeyRel W d d' → PairRel θ S y y' → PairRel θ S (between d y) (between' d' y'))
    (dt : Int) (n : Nat) {x : τ} {x' : τ'} (hx : M x x') {s : σ} {s' : σ'} (hz : Z s s') {y : EState V} {y' : EState U}
    (hy : PairRel θ S y y') :
    RunPair θ Z M S (runOver call between dt n x s y) (runOver call' between' dt n x' s' y') := by
  induction n generalizing x x' s s' y y' with
  | zero => exact ⟨hx, hz, hy⟩
  | succ n ih =>
    unfold runOver
    have h := hcall x x' s s' y y' dt hx hz hy
    revert h
    generalize call x s y dt = r
    generalize call' x' s' y' dt = r'
    intro h
    obtain ⟨r1, r2, r3, r4⟩ := r
    obtain ⟨r1', r2', r3', r4'⟩ := r'
    obtain ⟨h1, h2, h3, h4⟩ := h
    simp only at h1 h2 h3 h4
    cases r4 with
    | error e =>
      cases r4' with
      | error e' => exact ⟨h1, h2, h4⟩
      | ok b => exact h4.elim
    | ok o =>
      cases r4' with
      | error e' => exact h4.elim
      | ok o' => exact ih h1 h2 (hb _ _ _ _ h4.1 h4.2)

/-! ## UpdateFrequencyWrapper -/

theorem PairRel.clock {y : EState V} {y' : EState U} (h : PairRel θ S y y') :
    Exc.Rel θ (EState.clock y) (EState.clock y') := by
  unfold EState.clock
  rcases KeyRel.get? h "time" with ⟨h1, h2⟩ | ⟨v, w, h1, h2, hr⟩
  · rw [h1, h2]; rfl
  · rw [h1, h2]
    cases v <;> cases w
    · rfl
    · exact hr.elim
    · exact hr.elim
    · exact hr

theorem runComponent_updating {p : ProgOver σ V} (implicit : Bool) (s : σ) (y : EState V) (dt : Int) :
    runComponent (fun s x (odt : Option Int) => if odt.isSome = implicit then p s x dt else (s, .error .typeError)) s y
      (if implicit then some dt else none) = p s y dt := by
  cases implicit with
  | false => simp [runComponent]
  | true =>
    simp only [runComponent, if_true, Option.isSome_some, Option.isSome_none, Bool.false_eq_true, if_false]
    split
    · rename_i h; rw [h]
    · rfl

/-- **A component in an UpdateFrequencyWrapper keeps the relation** if the component does and related times are equally
far apart. -/
theorem updating_pair (hθ : ∀ t t' u u', θ t t' → θ u u' → t - u = t' - u') {p : ProgOver σ V} {p' : ProgOver σ' U}
    (hp : ProgPair θ Z S T W p p') (implicit : Bool) :
    ProgPair θ (UpdatingPair θ Z T W) S T W (updatingO implicit p) (updatingO implicit p') := by
  intro w w' y y' dt hw hy
  obtain ⟨s, u⟩ := w
  obtain ⟨s', u'⟩ := w'
  obtain ⟨delta, cached, last⟩ := u
  obtain ⟨delta', cached', last'⟩ := u'
  obtain ⟨hz, hd, hc, hl⟩ := hw
  simp only at hz hd hc hl
  subst hd
  have href : ∀ c, c = UFW.refresh EState.clock
        (fun s x (odt : Option Int) => if odt.isSome = implicit then p s x dt else (s, .error .typeError))
        ⟨delta, cached, last⟩ s y (if implicit then some dt else none) →
      ∀ c', c' = UFW.refresh EState.clock
        (fun s x (odt : Option Int) => if odt.isSome = implicit then p' s x dt else (s, .error .typeError))
        ⟨delta, cached', last'⟩ s' y' (if implicit then some dt else none) →
      UpdatingPair θ Z T W (c.2.1, c.1) (c'.2.1, c'.1) ∧
      Exc.Rel (Option.Rel (fun x y => KeyRel T x.1 y.1 ∧ KeyRel W x.2 y.2)) c.2.2 c'.2.2 := by
    intro c hcc c' hcc'
    subst hcc hcc'
    unfold UFW.refresh
    rw [runComponent_updating, runComponent_updating]
    obtain ⟨hz', hr⟩ := hp s s' y y' dt hz hy
    revert hz' hr
    generalize p s y dt = r
    generalize p' s' y' dt = r'
    obtain ⟨s1, r⟩ := r
    obtain ⟨s1', r'⟩ := r'
    intro hz' hr
    simp only at hz' hr
    cases r with
    | error e =>
      cases r' with
      | error e' => exact ⟨⟨hz', rfl, hc, hl⟩, hr⟩
      | ok _ => exact hr.elim
    | ok o =>
      cases r' with
      | error e' => exact hr.elim
      | ok o' =>
        have hclk := PairRel.clock hy
        dsimp only
        revert hclk
        generalize EState.clock y = t
        generalize EState.clock y' = t'
        intro hclk
        cases t with
        | error e =>
          cases t' with
          | error e' => exact ⟨⟨hz', rfl, .some hr, hl⟩, hclk⟩
          | ok _ => exact hclk.elim
        | ok t =>
          cases t' with
          | error e' => exact hclk.elim
          | ok t' => exact ⟨⟨hz', rfl, .some hr, .some hclk⟩, .some hr⟩
  have hcall : ∀ c, c = UFW.call EState.clock
        (fun s x (odt : Option Int) => if odt.isSome = implicit then p s x dt else (s, .error .typeError))
        ⟨delta, cached, last⟩ s y (if implicit then some dt else none) →
      ∀ c', c' = UFW.call EState.clock
        (fun s x (odt : Option Int) => if odt.isSome = implicit then p' s x dt else (s, .error .typeError))
        ⟨delta, cached', last'⟩ s' y' (if implicit then some dt else none) →
      UpdatingPair θ Z T W (c.2.1, c.1) (c'.2.1, c'.1) ∧
      Exc.Rel (Option.Rel (fun x y => KeyRel T x.1 y.1 ∧ KeyRel W x.2 y.2)) c.2.2 c'.2.2 := by
    intro c hcc c' hcc'
    unfold UFW.call at hcc hcc'
    cases hl with
    | none => exact href c hcc c' hcc'
    | some hlt =>
      rename_i t0 t0'
      have hclk := PairRel.clock hy
      dsimp only at hcc hcc'
      cases ht : EState.clock y with
      | error e =>
        cases ht' : EState.clock y' with
        | error e' =>
          rw [ht, ht'] at hclk
          rw [ht] at hcc
          rw [ht'] at hcc'
          subst hcc hcc'
          exact ⟨⟨hz, rfl, hc, .some hlt⟩, hclk⟩
        | ok _ => rw [ht, ht'] at hclk; exact hclk.elim
      | ok t =>
        cases ht' : EState.clock y' with
        | error e' => rw [ht, ht'] at hclk; exact hclk.elim
        | ok t' =>
          rw [ht, ht'] at hclk
          rw [ht] at hcc
          rw [ht'] at hcc'
          have hdiff := hθ t t' t0 t0' hclk hlt
          dsimp only at hcc hcc'
          by_cases hge : t ≥ t0 + delta
          · have hge' : t' ≥ t0' + delta := by omega
            rw [if_pos hge] at hcc
            rw [if_pos hge'] at hcc'
            exact href c hcc c' hcc'
          · have hge' : ¬ t' ≥ t0' + delta := by omega
            rw [if_neg hge] at hcc
            rw [if_neg hge'] at hcc'
            subst hcc hcc'
            exact ⟨⟨hz, rfl, hc, .some hlt⟩, hc⟩
  obtain ⟨h1, h2⟩ := hcall _ rfl _ rfl
  refine ⟨h1, ?_⟩
  unfold updatingO
  dsimp only
  revert h2
  generalize (UFW.call EState.clock
        (fun s x (odt : Option Int) => if odt.isSome = implicit then p s x dt else (s, .error .typeError))
        ⟨delta, cached, last⟩ s y (if implicit then some dt else none)).2.2 = r
  generalize (UFW.call EState.clock
        (fun s x (odt : Option Int) => if odt.isSome = implicit then p' s x dt else (s, .error .typeError))
        ⟨delta, cached', last'⟩ s' y' (if implicit then some dt else none)).2.2 = r'
  intro h2
  cases r with
  | error e =>
    cases r' with
    | error e' => exact h2
    | ok _ => exact h2.elim
  | ok o =>
    cases r' with
    | error e' => exact h2.elim
    | ok o' =>
      have h2 : Option.Rel _ o o' := h2
      cases h2 with
      | none => rfl
      | some h => exact h

end Verif

import Verif.Props.SteadyRuns
/-!
# C78: runs conserve what the components conserve

A budget is a weighted sum of values of a state: total mass, the energy of a column, the
sum of a quantity over two reservoirs.
-/

namespace Verif

variable {σ τ : Type}

/-- A weighted sum of values: weight, quantity and named coordinates of each term. -/
abbrev Budget := List (Rat × String × (String → Nat))

/-- The amount of the budget in a set of values. -/
def Budget.total (B : Budget) (v : Values) : Rat := (B.map fun b => b.1 * v b.2.1 b.2.2).sum

/-- The state has the quantities of the budget in the units `u`. -/
def Budget.HasUnits (B : Budget) (u : String → String) (state : State) : Prop :=
  ∀ b ∈ B, Verif.HasUnits state b.2.1 (u b.2.1)

/-- Whatever the state and their own memory, the components give tendencies of the
quantities `ks`, and these change the budget at the rate `c` per second (conserve it, if
`c` is 0). -/
def Budgeted (R : Registry) (prog : Prog σ) (dt : Int) (ks : List String) (B : Budget) (u : String → String)
    (c : Rat) : Prop :=
  ∀ s state r t, B.HasUnits u state → (prog s state dt).2 = .ok r → convertTendencies R state r.1 = .ok t →
    (∀ q, q ∈ Dict.keys t ↔ q ∈ ks) ∧ B.total (tval t) = c

theorem Budget.total_congr {B : Budget} {v w : Values} (h : ∀ b ∈ B, v b.2.1 b.2.2 = w b.2.1 b.2.2) :
    B.total v = B.total w := by
  unfold Budget.total
  congr 1
  exact List.map_congr_left fun b hb => by rw [h b hb]

theorem Budget.total_add (B : Budget) (v w : Values) :
    B.total (fun q ix => v q ix + w q ix) = B.total v + B.total w := by
  unfold Budget.total
  induction B with
  | nil => simp
  | cons b B ih => simp only [List.map_cons, List.sum_cons, ih]; ring

theorem Budget.total_smul (B : Budget) (a : Rat) (v : Values) :
    B.total (fun q ix => a * v q ix) = a * B.total v := by
  unfold Budget.total
  induction B with
  | nil => simp
  | cons b B ih => simp only [List.map_cons, List.sum_cons, ih]; ring

theorem Budget.total_zero (B : Budget) : B.total (fun _ _ => 0) = 0 := by
  have := B.total_smul 0 (fun _ _ => 0)
  simpa using this

/-- Sums of rates. -/
theorem Budget.total_sum {B : Budget} (l : List Nat) (a : Nat → Rat) (v : Nat → Values) :
    B.total (fun q ix => (l.map fun j => a j * v j q ix).sum) = (l.map fun j => a j * B.total (v j)).sum := by
  induction l with
  | nil => simpa using B.total_zero
  | cons j l ih =>
    simp only [List.map_cons, List.sum_cons]
    rw [B.total_add, B.total_smul, ih]

/-- Runs whose steps change the budget by the same amount. -/
theorem runSteps_budget {call : τ → σ → State → Int → τ × σ × State × Except Err (Dict DataArray × State)}
    {dt : Int} {B : Budget} {c : Rat} (I : τ → State → Prop)
    (hstep : ∀ x s state x' s' st' diag new, I x state → call x s state dt = (x', s', st', .ok (diag, new)) →
      I x' new ∧ B.total (State.val new) = B.total (State.val state) + seconds dt * c) :
    ∀ (n : Nat) (x : τ) (s : σ) (state : State) (x' : τ) (s' : σ) (final : State), I x state →
      runSteps call dt n x s state = some (x', s', final) →
      B.total (State.val final) = B.total (State.val state) + n * (seconds dt * c) := by
  intro n
  induction n with
  | zero =>
    intro x s state x' s' final hI h
    unfold runSteps at h
    simp only [Option.some.injEq, Prod.mk.injEq] at h
    obtain ⟨rfl, rfl, rfl⟩ := h
    simp
  | succ n ih =>
    intro x s state x' s' final hI h
    unfold runSteps at h
    split at h
    · rename_i x1 s1 st1 d1 new hc
      obtain ⟨hI1, hv⟩ := hstep x s state x1 s1 st1 d1 new hI hc
      rw [ih x1 s1 new x' s' final hI1 h, hv]
      push_cast
      ring
    · cases h

/-! ## AdamsBashforth -/

/-- All tendencies remembered keep to the budget. -/
def BudgetedHist (ks : List String) (B : Budget) (c : Rat) (hist : List (Dict DataArray)) : Prop :=
  ∀ t ∈ hist, (∀ q, q ∈ Dict.keys t ↔ q ∈ ks) ∧ B.total (tval t) = c

theorem ab_budget_call {R : Registry} {prog : Prog σ} {dt : Int} {ks : List String} {B : Budget}
    {u : String → String} {c : Rat} (hS : Budgeted R prog dt ks B u c) {ab ab' : AB} {s s' : σ} {state : State}
    {diag : Dict DataArray} {new : State} (hh : BudgetedHist ks B c ab.hist) (hu : B.HasUnits u state)
    (h : AB.call R prog ab s state dt = (ab', s', .ok (diag, new))) :
    BudgetedHist ks B c ab'.hist ∧ B.HasUnits u new ∧
      B.total (State.val new) = B.total (State.val state) + seconds dt * c := by
  cases ab_outcome R prog ab s state dt with
  | rejected hts hc ht => rw [hc] at h; cases h
  | early e hts hc ht => rw [hc] at h; cases h
  | late t e hts ht hp hc => rw [hc] at h; cases h
  | done t r new' hts hr hconv ht hp hc =>
    rw [hc] at h
    simp only [Prod.mk.injEq, Except.ok.injEq] at h
    obtain ⟨hab, rfl, rfl, rfl⟩ := h
    have hall : BudgetedHist ks B c (ab.hist ++ [t]) := by
      intro t' ht'
      rcases List.mem_append.1 ht' with ht' | ht'
      · exact hh t' ht'
      · rw [List.mem_singleton] at ht'; subst ht'
        exact hS s state r _ hu hr hconv
    obtain ⟨m, hm, m1, m4, hk, hq⟩ := performStep_spec hp
    obtain ⟨_, c2, c3⟩ := copyUntouched_spec state new'
    have hlen : m ≤ (ab.hist ++ [t]).length := by rw [hm]; exact Nat.min_le_right _ _
    have hkeys : ∀ q, q ∈ Dict.keys new' ↔ q ∈ ks := by
      intro q
      rw [hk]
      by_cases h1 : m = 1
      · rw [if_pos h1]
        simp only [List.getLast?_append, List.getLast?_singleton, Option.some_or, Option.getD_some]
        exact (hall t (by simp)).1 q
      · rw [if_neg h1]
        cases hh' : ab.hist ++ [t] with
        | nil => simp at hh'
        | cons t0 l => exact (hall t0 (by rw [hh']; simp)).1 q
    have hpast : ∀ j < m, (ab.hist ++ [t]).reverse.getD j [] ∈ ab.hist ++ [t] := by
      intro j hj
      have hjl : j < (ab.hist ++ [t]).reverse.length := by rw [List.length_reverse]; omega
      rw [← List.mem_reverse, List.getD_eq_getElem?_getD, List.getElem?_eq_getElem hjl]
      exact List.getElem_mem hjl
    -- every value, stepped or not
    have hval : ∀ q ix, State.val (copyUntouched state new') q ix = State.val state q ix + seconds dt *
        ((List.range m).map fun j => abCoef m j * tval ((ab.hist ++ [t]).reverse.getD j []) q ix).sum := by
      intro q ix
      by_cases hmem : q ∈ Dict.keys new'
      · obtain ⟨x, r', hx, hr', ha, _, hj, hval⟩ := hq q hmem
        have hn : Dict.get? (copyUntouched state new') q = some (.da r') := by rw [c2 q hmem]; exact hr'
        rw [State.val_of_get hn, State.val_of_get hx, hval ix]
        rfl
      · rw [State.val_congr (c3 q hmem)]
        have : (List.range m).map (fun j => abCoef m j * tval ((ab.hist ++ [t]).reverse.getD j []) q ix) =
            (List.range m).map (fun _ => (0 : Rat)) := by
          apply List.map_congr_left
          intro j hj
          rw [tval_of_not_mem (fun hm' => hmem ((hkeys q).2 (((hall _ (hpast j (List.mem_range.1 hj))).1 q).1 hm'))),
            mul_zero]
        rw [this]
        simp
    refine ⟨?_, ?_, ?_⟩
    · rw [← hab]
      split
      · intro t' ht'; exact hall t' (List.mem_of_mem_tail ht')
      · exact hall
    · intro b hb
      obtain ⟨x', hx', hux⟩ := hu b hb
      by_cases hmem : b.2.1 ∈ Dict.keys new'
      · obtain ⟨x, r', hx, hr', ha, _⟩ := hq _ hmem
        rw [hx] at hx'; cases hx'
        exact ⟨r', by rw [c2 _ hmem]; exact hr', by rw [ha]; exact hux⟩
      · exact ⟨x', by rw [c3 _ hmem]; exact hx', hux⟩
    · have hv : State.val (copyUntouched state new') = fun q ix => State.val state q ix + seconds dt *
          ((List.range m).map fun j => abCoef m j * tval ((ab.hist ++ [t]).reverse.getD j []) q ix).sum :=
        funext fun q => funext fun ix => hval q ix
      rw [hv, B.total_add, B.total_smul, B.total_sum (List.range m) (abCoef m)
        (fun j => tval ((ab.hist ++ [t]).reverse.getD j []))]
      have : (List.range m).map (fun j => abCoef m j * B.total (tval ((ab.hist ++ [t]).reverse.getD j []))) =
          (List.range m).map (fun j => abCoef m j * c) :=
        List.map_congr_left fun j hj => by rw [(hall _ (hpast j (List.mem_range.1 hj))).2]
      rw [this]
      exact abFormula_const m1 m4 _ (seconds dt) c

/-- **C78, AdamsBashforth** of any order: over `n` steps the budget changes by `n` times
the timestep times the rate at which the components change it; nothing is lost if they
conserve it. -/
theorem ab_conserves {R : Registry} {prog : Prog σ} {dt : Int} {ks : List String} {B : Budget}
    {u : String → String} {c : Rat} (hS : Budgeted R prog dt ks B u c) {inProps outProps : PropDict}
    {inst : String} {tid : Bool} (k : Int) (ab : AB) (hk : AB.make k = .ok ab) (n : Nat) (s s' : σ)
    (state final : State) (ab' : AB) (hu : B.HasUnits u state)
    (h : runSteps (tsCall R inProps outProps inst tid (abCall R prog)) dt n ab s state = some (ab', s', final)) :
    B.total (State.val final) = B.total (State.val state) + n * (seconds dt * c) := by
  have hh : BudgetedHist ks B c ab.hist := by
    unfold AB.make at hk
    split at hk
    · injection hk with hk; subst hk
      intro t ht; cases ht
    · cases hk
  exact runSteps_budget (fun (ab : AB) state => BudgetedHist ks B c ab.hist ∧ B.HasUnits u state)
    (fun x s state x' s' st' diag new hI hc => by
      obtain ⟨⟨d, o⟩, ho, _, hst⟩ := tsCall_state hc
      unfold abCall at ho
      simp only [Prod.mk.injEq] at ho
      obtain ⟨h1, h2, rfl, h3⟩ := ho
      have hcall : AB.call R prog x s state dt = (x', s', .ok (d, o)) := Prod.ext h1 (Prod.ext h2 h3)
      obtain ⟨e1, e2, e3⟩ := ab_budget_call hS hI.1 hI.2 hcall
      obtain ⟨_, _, _, hkeys, _⟩ := ab_untouched h3
      have hg := hst (fun q hq => (hkeys q).2 hq)
      refine ⟨⟨e1, fun b hb => ?_⟩, ?_⟩
      · obtain ⟨y, hy, hyu⟩ := e2 b hb; exact ⟨y, by rw [hg]; exact hy, hyu⟩
      · rw [← e3]
        exact B.total_congr fun b _ => State.val_congr (hg _) _)
    n ab s state ab' s' final ⟨hh, hu⟩ h

/-! ## Leapfrog -/

/-- The remembered state is one step behind in the budget, and equal in what is not stepped. -/
structure BudgetBehind (dt : Int) (ks : List String) (B : Budget) (c : Rat) (lf : LF) (state : State) : Prop where
  total : ∀ old, lf.old = some old → B.total (State.val old) = B.total (State.val state) - seconds dt * c
  attrs : ∀ old, lf.old = some old → ∀ q x y, Dict.get? old q = some (.da x) → Dict.get? state q = some (.da y) →
    x.attrs = y.attrs
  rest : ∀ old, lf.old = some old → ∀ q, q ∉ ks → ∀ ix, State.val old q ix = State.val state q ix

/-- **C78, Leapfrog** with any filter: the filter moves nothing in or out of the budget. -/
theorem lf_conserves {R : Registry} {prog : Prog σ} (hd : prog.Dicts) {dt : Int} {ks : List String} {B : Budget}
    {u : String → String} {c : Rat} (hS : Budgeted R prog dt ks B u c) {inProps outProps : PropDict}
    {inst : String} {tid : Bool} (strength alpha : Rat) (n : Nat) (s s' : σ) (state final : State) (lf' : LF)
    (hu : B.HasUnits u state)
    (h : runSteps (tsCall R inProps outProps inst tid (LF.call R prog)) dt n
      { strength := strength, alpha := alpha } s state = some (lf', s', final)) :
    B.total (State.val final) = B.total (State.val state) + n * (seconds dt * c) := by
  refine runSteps_budget
    (fun (lf : LF) state => BudgetBehind dt ks B c lf state ∧ B.HasUnits u state)
    (fun x s state x' s' st' diag new hI hc => ?_)
    n _ s state lf' s' final
    ⟨⟨fun old h => (by cases h), fun old h => (by cases h), fun old h => (by cases h)⟩, hu⟩ h
  obtain ⟨⟨d, o⟩, ho, _, hst⟩ := tsCall_state hc
  obtain ⟨r, hr, _, hkeys, hkeys', _, hrest⟩ := lf_untouched hd ho
  have hg := hst (fun q hq => (hkeys q).2 ((hkeys' q).1 hq))
  have hlt : ∀ t, lfTendency R prog x s state dt = some t →
      Dict.keys t = Dict.keys r.1 ∧ (∀ q, q ∈ Dict.keys t ↔ q ∈ ks) ∧ B.total (tval t) = c := by
    intro t ht
    unfold lfTendency abTendency at ht
    split at ht
    · rw [hr] at ht
      dsimp only at ht
      cases hcv : convertTendencies R state r.1 with
      | error e => rw [hcv] at ht; cases ht
      | ok t' =>
        rw [hcv] at ht
        injection ht with ht; subst ht
        exact ⟨(convertTendencies_ok hcv).1, hS s state r _ hI.2 hr hcv⟩
    · cases ht
  cases hold : x.old with
  | none =>
    obtain ⟨rfl, hlf, t, ht, hst1⟩ := leapfrog_first_call ho hold
    obtain ⟨hkr, hks, htot⟩ := hlt t ht
    have hnk : ∀ q, q ∉ ks → Dict.get? new q = Dict.get? st' q := fun q hq => by
      rw [hg]; exact (hrest q (by rw [← hkr, hks]; exact hq)).1
    have hv : ∀ q ix, State.val new q ix = State.val st' q ix + seconds dt * tval t q ix := by
      intro q ix
      by_cases hq : q ∈ ks
      · obtain ⟨a, b, ha, hb, _, hval⟩ := hst1 q ((hks q).2 hq)
        have hnew : Dict.get? new q = some (.da b) := by rw [hg]; exact hb
        rw [State.val_of_get hnew, State.val_of_get ha, hval ix]
      · rw [State.val_congr (hnk q hq), tval_of_not_mem (fun h => hq ((hks q).1 h))]; ring
    have hat : ∀ q a, Dict.get? st' q = some (.da a) → ∃ b, Dict.get? new q = some (.da b) ∧ b.attrs = a.attrs := by
      intro q a ha
      by_cases hq : q ∈ ks
      · obtain ⟨a', b, ha', hb, hab, _⟩ := hst1 q ((hks q).2 hq)
        rw [ha] at ha'; cases ha'
        exact ⟨b, by rw [hg]; exact hb, hab⟩
      · exact ⟨a, by rw [hnk q hq]; exact ha, rfl⟩
    have htv : B.total (State.val new) = B.total (State.val st') + seconds dt * c := by
      have : State.val new = fun q ix => State.val st' q ix + seconds dt * tval t q ix :=
        funext fun q => funext fun ix => hv q ix
      rw [this, B.total_add, B.total_smul, htot]
    refine ⟨⟨⟨?_, ?_, ?_⟩, ?_⟩, htv⟩
    · intro old hold'
      rw [hlf] at hold'
      injection hold' with hold'
      subst hold'
      rw [htv]; ring
    · intro old hold' q a b ha hb
      rw [hlf] at hold'
      injection hold' with hold'
      subst hold'
      obtain ⟨b', hb', e⟩ := hat q a ha
      rw [hb] at hb'; cases hb'
      exact e.symm
    · intro old hold' q hq ix
      rw [hlf] at hold'
      injection hold' with hold'
      subst hold'
      exact (State.val_congr (hnk q hq) ix).symm
    · intro b hb
      obtain ⟨a, ha, hua⟩ := hI.2 b hb
      obtain ⟨b', hb', e⟩ := hat _ a ha
      exact ⟨b', hb', by rw [e]; exact hua⟩
  | some old =>
    obtain ⟨hlf, t, ht, hst1⟩ := leapfrog_later_call hd ho hold
    obtain ⟨hkr, hks, htot⟩ := hlt t ht
    have hnk : ∀ q, q ∉ ks → Dict.get? new q = Dict.get? state q ∧ Dict.get? st' q = Dict.get? state q := fun q hq => by
      rw [hg]; exact hrest q (by rw [← hkr, hks]; exact hq)
    let δ : Values := fun q ix => State.val old q ix + 2 * seconds dt * tval t q ix - 2 * State.val state q ix +
      State.val old q ix
    have hv : ∀ q ix, State.val new q ix = State.val old q ix + 2 * seconds dt * tval t q ix +
          (x.alpha - 1) * (x.strength / 2) * δ q ix ∧
        State.val st' q ix = State.val state q ix + x.alpha * (x.strength / 2) * δ q ix := by
      intro q ix
      by_cases hq : q ∈ ks
      · obtain ⟨a, b, b', m, ha, hb, hb', hm, _, _, _, hval⟩ := hst1 q ((hks q).2 hq)
        have hnew : Dict.get? new q = some (.da m) := by rw [hg]; exact hm
        obtain ⟨h1, h2, _⟩ := hval ix
        rw [State.val_of_get hnew, State.val_of_get hb', h1, h2]
        show _ ∧ _
        dsimp only [δ]
        rw [State.val_of_get ha, State.val_of_get hb]
        unfold filterDisplacement
        constructor <;> ring
      · obtain ⟨e1, e2⟩ := hnk q hq
        rw [State.val_congr e1, State.val_congr e2]
        dsimp only [δ]
        rw [hI.1.rest old hold q hq ix, tval_of_not_mem (fun h => hq ((hks q).1 h))]
        constructor <;> ring
    have hat : ∀ q b, Dict.get? state q = some (.da b) →
        (∃ b', Dict.get? st' q = some (.da b') ∧ b'.attrs = b.attrs) ∧
        ∃ m, Dict.get? new q = some (.da m) ∧ m.attrs = b.attrs := by
      intro q b hb
      by_cases hq : q ∈ ks
      · obtain ⟨a, b0, b', m, ha, hb0, hb', hm, e1, _, e2, _⟩ := hst1 q ((hks q).2 hq)
        rw [hb] at hb0; cases hb0
        exact ⟨⟨b', hb', e1⟩, m, by rw [hg]; exact hm, by rw [e2]; exact hI.1.attrs old hold q a b ha hb⟩
      · obtain ⟨e1, e2⟩ := hnk q hq
        exact ⟨⟨b, by rw [e2]; exact hb, rfl⟩, b, by rw [e1]; exact hb, rfl⟩
    have hδ : B.total δ = 0 := by
      have e : δ = fun q ix => (State.val old q ix + (2 * seconds dt) * tval t q ix) +
          ((-2) * State.val state q ix + State.val old q ix) := by
        funext q ix; dsimp only [δ]; ring
      rw [e, B.total_add, B.total_add, B.total_add, B.total_smul, B.total_smul, htot, hI.1.total old hold]
      ring
    have htn : B.total (State.val new) = B.total (State.val state) + seconds dt * c := by
      have e : State.val new = fun q ix => (State.val old q ix + (2 * seconds dt) * tval t q ix) +
          ((x.alpha - 1) * (x.strength / 2)) * δ q ix := by
        funext q ix; rw [(hv q ix).1]
      rw [e, B.total_add, B.total_add, B.total_smul, B.total_smul, htot, hδ, hI.1.total old hold]
      ring
    have hts : B.total (State.val st') = B.total (State.val state) := by
      have e : State.val st' = fun q ix => State.val state q ix + (x.alpha * (x.strength / 2)) * δ q ix := by
        funext q ix; rw [(hv q ix).2]
      rw [e, B.total_add, B.total_smul, hδ]
      ring
    refine ⟨⟨⟨?_, ?_, ?_⟩, ?_⟩, htn⟩
    · intro old' hold'
      rw [hlf] at hold'
      injection hold' with hold'
      subst hold'
      rw [htn, hts]; ring
    · intro old' hold' q a b ha hb
      rw [hlf] at hold'
      injection hold' with hold'
      subst hold'
      have hq : q ∈ Dict.keys state := (hkeys' q).1 (Dict.mem_keys_of_get? ha)
      obtain ⟨v, hvq⟩ := Dict.get?_of_mem_keys hq
      cases v with
      | da b0 =>
        obtain ⟨⟨b', h1, e1⟩, m, h2, e2⟩ := hat q b0 hvq
        rw [ha] at h1; cases h1
        rw [hb] at h2; cases h2
        rw [e1, e2]
      | time tt =>
        by_cases hk : q ∈ ks
        · obtain ⟨_, b0, _, _, _, hb0, _⟩ := hst1 q ((hks q).2 hk)
          rw [hvq] at hb0; cases hb0
        · rw [(hnk q hk).2, hvq] at ha; cases ha
    · intro old' hold' q hq ix
      rw [hlf] at hold'
      injection hold' with hold'
      subst hold'
      obtain ⟨e1, e2⟩ := hnk q hq
      rw [State.val_congr e1, State.val_congr e2]
    · intro b hb
      obtain ⟨a, ha, hua⟩ := hI.2 b hb
      obtain ⟨_, m, hm, e⟩ := hat _ a ha
      exact ⟨m, hm, by rw [e]; exact hua⟩

/-! ## SSPRungeKutta -/

/-- **C78, SSPRungeKutta** with two or three stages. -/
theorem ssprk_conserves {R : Registry} {prog : Prog σ} (hd : prog.Dicts) {dt : Int} {ks : List String} {B : Budget}
    {u : String → String} {c : Rat} (hS : Budgeted R prog dt ks B u c) {inProps outProps : PropDict}
    {inst : String} {tid : Bool} (three : Bool) (n : Nat) (s s' : σ) (state final : State) (ab' : AB)
    (hnd : (Dict.keys state).Nodup) (hT : state.TimeOk) (hu : B.HasUnits u state)
    (h : runSteps (tsCall R inProps outProps inst tid (sspCall R prog three)) dt n { order := 1 } s state =
      some (ab', s', final)) :
    B.total (State.val final) = B.total (State.val state) + n * (seconds dt * c) := by
  refine runSteps_budget
    (fun (ab : AB) state => (ab.order = 1 ∧ (Dict.keys state).Nodup ∧ state.TimeOk) ∧ B.HasUnits u state)
    (fun x s state x' s' st' diag new hI hc => ?_)
    n _ s state ab' s' final ⟨⟨rfl, hnd, hT⟩, hu⟩ h
  obtain ⟨⟨hord, hnd, hT⟩, hu⟩ := hI
  obtain ⟨⟨d, o⟩, ho, rfl⟩ := tsCall_new hc
  unfold sspCall at ho
  simp only [Prod.mk.injEq] at ho
  obtain ⟨h1, h2, rfl, h3⟩ := ho
  have hcall : ssprkCall R prog three x s state dt = (x', s', .ok (d, o)) := Prod.ext h1 (Prod.ext h2 h3)
  have S := ssprkCall_spec hd hord hnd hT hcall
  obtain ⟨c1, c2, c3⟩ := copyUntouched_spec state o
  have hget : ∀ p, Dict.get? (copyUntouched state o) p = Dict.get? o p := by
    intro p
    by_cases hp : p ∈ Dict.keys o
    · exact c2 p hp
    · rw [c3 p hp, (Dict.get?_eq_none_iff _ _).2 hp,
        (Dict.get?_eq_none_iff _ _).2 (fun h => hp ((S.keys p).2 h))]
  obtain ⟨Y, K, W, D, hY0, _, _, _, hst, hattr, hout⟩ := S.step
  have hK : ∀ i < (if three then shuOsher else heun).stages, B.total (tval (K i)) = c := by
    intro i hi
    obtain ⟨⟨r, hr, hcv, _⟩, _, _, hat, _⟩ := hst i hi
    exact (hS (W i) (Y i) r (K i) (fun b hb => (hu b hb).of_sameAttrs hat) (by rw [hr]) hcv).2
  refine ⟨⟨⟨(ssprk_order hcall).trans hord, nodup_copyUntouched _ _ S.nodup,
    TimeOk.congr ((hget "time").trans S.time) hT⟩, fun b hb => ?_⟩, ?_⟩
  · obtain ⟨y, hy, e⟩ := (hu b hb).of_sameAttrs hattr
    exact ⟨y, by rw [hget]; exact hy, e⟩
  · have hv : State.val (copyUntouched state o) = fun q ix => State.val state q ix + seconds dt *
        ((List.range (if three then shuOsher else heun).stages).map fun j =>
          (if three then shuOsher else heun).b j * tval (K j) q ix).sum :=
      funext fun q => funext fun ix => by rw [State.val_congr (hget q), hout q ix]
    rw [hv, B.total_add, B.total_smul, B.total_sum _ (if three then shuOsher else heun).b (fun j => tval (K j))]
    cases three with
    | true =>
      have k0 := hK 0 (by show 0 < 3; omega)
      have k1 := hK 1 (by show 1 < 3; omega)
      have k2 := hK 2 (by show 2 < 3; omega)
      simp [List.range_succ, shuOsher, k0, k1, k2]
      ring_nf
      simp
    | false =>
      have k0 := hK 0 (by show 0 < 2; omega)
      have k1 := hK 1 (by show 1 < 2; omega)
      simp [List.range_succ, heun, k0, k1]
      ring_nf
      simp

/-! ## Examples -/

namespace Demo

/-- A tendency in km/s that moves `k` per second from the third level to the first. -/
def mixTend (k : Rat) : DataArray :=
  ⟨["z"], ⟨[3], fun i => if i.getD 0 0 = 0 then k else if i.getD 0 0 = 2 then -k else 0⟩, [("units", "km s^-1")]⟩

/-- Mixes `h` between the first and the third level, ever faster. -/
def mixProg : Prog Nat := fun n state _ =>
  (n + 1, .ok ([("h", mixTend (n + State.val state "h" (fun _ => 2)))], []))

theorem mixProg_dicts : mixProg.Dicts := by
  intro s state dt r h
  injection h with h; subst h
  exact List.nodup_singleton _

/-- The sum of `h` over the levels. -/
def column : Budget := [(1, "h", fun _ => 0), (1, "h", fun _ => 1), (1, "h", fun _ => 2)]

theorem mixTend_toUnits (k : Rat) : (mixTend k).toUnits reg ("km" ++ " s^-1") = .ok (mixTend k) := by
  have h : ∃ a, reg.unit "km s^-1" = .ok a ∧ a.sameQty a = true :=
    Exc.test_ok (x := reg.unit "km s^-1") (p := fun a => a.sameQty a) (by decide +kernel)
  obtain ⟨a, ha, hs⟩ := h
  have e : ("km" ++ " s^-1" : String) = "km s^-1" := by decide
  have hun : (mixTend k).attrs.get? "units" = some "km s^-1" := rfl
  unfold DataArray.toUnits DataArray.dataArrayToUnits
  rw [e]
  simp only [hun, ha, Exc.ok_bind, hs, if_true]

theorem mixProg_conserves : Budgeted reg mixProg dt ["h"] column (fun _ => "km") 0 := by
  intro s state r t hu hr hc
  injection hr with hr; subst hr
  obtain ⟨x, hx, hux⟩ := hu _ List.mem_cons_self
  unfold convertTendencies convertTendency at hc
  have hun : (mixTend (s + State.val state "h" (fun _ => 2))).attrs.get? "units" = some "km s^-1" := rfl
  simp only [hun] at hc
  rw [State.da_ok.2 hx, Exc.ok_bind, Dict.get_eq_ok.2 hux, Exc.ok_bind, mixTend_toUnits, Exc.ok_bind] at hc
  unfold convertTendencies at hc
  injection hc with hc; subst hc
  refine ⟨fun q => by simp [Dict.keys], ?_⟩
  show 1 * (s + State.val state "h" (fun _ => 2)) + (1 * 0 + (1 * -(s + State.val state "h" (fun _ => 2)) + 0)) = (0 : Rat)
  ring

/-- The sum over the levels of `h` and its value at the first level. -/
def columnOf {τ σ : Type} : Option (τ × σ × State) → Option (Rat × Rat)
  | some r => some (column.total (State.val r.2.2), State.val r.2.2 "h" (fun _ => 0))
  | none => none

end Demo

/-- C78: the hypotheses are met by runs in which `h` is moved between the levels; its sum stays. -/
example : Demo.column.HasUnits (fun _ => "km") Demo.state ∧
    Demo.column.total (State.val Demo.state) = 6 ∧ State.val Demo.state "h" (fun _ => 0) = 1 ∧
    Demo.columnOf (runSteps (tsCall Demo.reg Demo.tsProps Demo.tsProps "S" true (abCall Demo.reg Demo.mixProg))
      Demo.dt 3 { order := 3 } 0 Demo.state) = some (6, 31 / 4) ∧
    Demo.columnOf (runSteps (tsCall Demo.reg Demo.tsProps Demo.tsProps "S" true (LF.call Demo.reg Demo.mixProg))
      Demo.dt 3 { strength := 1 / 10, alpha := 7 / 10 } 0 Demo.state) = some (6, 48139 / 5000) ∧
    Demo.columnOf (runSteps (tsCall Demo.reg Demo.tsProps Demo.tsProps "S" false (sspCall Demo.reg Demo.mixProg true))
      Demo.dt 3 { order := 1 } 0 Demo.state) = some (6, 283 / 27) := by
  refine ⟨?_, ?_, ?_, ?_, ?_, ?_⟩
  · intro b hb
    have : b.2.1 = "h" := by
      simp only [Demo.column, List.mem_cons, List.not_mem_nil, or_false] at hb
      rcases hb with rfl | rfl | rfl <;> rfl
    rw [this]
    exact ⟨_, rfl, rfl⟩
  · decide +kernel
  · decide +kernel
  · decide +kernel
  · decide +kernel
  · decide +kernel

namespace Demo

def level (x : Rat) : DataArray := ⟨["z"], ⟨[3], fun _ => x⟩, [("units", "m")]⟩

def rate (x : Rat) : DataArray := ⟨["z"], ⟨[3], fun _ => x⟩, [("units", "m s^-1")]⟩

/-- In the first call only `h` has a (zero) tendency; then `h` is turned into `g`. -/
def lateProg : Prog Nat := fun n _ _ =>
  (n + 1, .ok (if n = 0 then [("h", rate 0)] else [("h", rate (-1)), ("g", rate 1)], []))

def twoState : State := [("h", .da (level 10)), ("g", .da (level 5))]

def both : Budget := [(1, "h", fun _ => 0), (1, "g", fun _ => 0)]

theorem rate_toUnits (k : Rat) : (rate k).toUnits reg ("m" ++ " s^-1") = .ok (rate k) := by
  have h : ∃ a, reg.unit "m s^-1" = .ok a ∧ a.sameQty a = true :=
    Exc.test_ok (x := reg.unit "m s^-1") (p := fun a => a.sameQty a) (by decide +kernel)
  obtain ⟨a, ha, hs⟩ := h
  have e : ("m" ++ " s^-1" : String) = "m s^-1" := by decide
  have hun : (rate k).attrs.get? "units" = some "m s^-1" := rfl
  unfold DataArray.toUnits DataArray.dataArrayToUnits
  rw [e]
  simp only [hun, ha, Exc.ok_bind, hs, if_true]

theorem rate_convert {state : State} {q : String} (h : HasUnits state q "m") (k : Rat) :
    convertTendency reg state q (rate k) = .ok (rate k) := by
  obtain ⟨x, hx, hux⟩ := h
  have hun : (rate k).attrs.get? "units" = some "m s^-1" := rfl
  unfold convertTendency
  simp only [hun]
  rw [State.da_ok.2 hx, Exc.ok_bind, Dict.get_eq_ok.2 hux, Exc.ok_bind, rate_toUnits]

end Demo

open Demo in
/-- C78 needs the components to give tendencies for the same quantities in every call: here
every call conserves the sum of `h` and `g`, but a second order AdamsBashforth does not step
`g`, which was not in the first call, and the sum drops. -/
theorem ab_conservation_needs_fixed_quantities :
    (∀ s state r t, both.HasUnits (fun _ => "m") state → (lateProg s state dt).2 = .ok r →
      convertTendencies reg state r.1 = .ok t → both.total (tval t) = 0) ∧
    both.HasUnits (fun _ => "m") twoState ∧ ∃ ab, AB.make 2 = .ok ab ∧
    ∃ r, runSteps (tsCall reg tsProps tsProps "S" false (abCall reg lateProg)) dt 2 ab 0 twoState = some r ∧
      both.total (State.val r.2.2) ≠ both.total (State.val twoState) := by
  refine ⟨?_, ?_, { order := 2 }, rfl, ?_⟩
  · intro s state r t hu hr hc
    have hh : HasUnits state "h" "m" := hu (1, "h", fun _ => 0) List.mem_cons_self
    have hg : HasUnits state "g" "m" := hu (1, "g", fun _ => 0) (List.mem_cons_of_mem _ List.mem_cons_self)
    injection hr with hr; subst hr
    dsimp only at hc
    by_cases h0 : s = 0
    · rw [if_pos h0] at hc
      simp only [convertTendencies, rate_convert hh, Exc.ok_bind] at hc
      injection hc with hc; subst hc
      decide +kernel
    · rw [if_neg h0] at hc
      simp only [convertTendencies, rate_convert hh, rate_convert hg, Exc.ok_bind] at hc
      injection hc with hc; subst hc
      decide +kernel
  · intro b hb
    simp only [both, List.mem_cons, List.not_mem_nil, or_false] at hb
    rcases hb with rfl | rfl
    · exact ⟨_, rfl, rfl⟩
    · exact ⟨_, rfl, rfl⟩
  · have h : ((runSteps (tsCall reg tsProps tsProps "S" false (abCall reg lateProg)) dt 2 { order := 2 } 0
        twoState).any fun r => decide (both.total (State.val r.2.2) ≠ both.total (State.val twoState))) = true := by
      decide +kernel
    cases hr : runSteps (tsCall reg tsProps tsProps "S" false (abCall reg lateProg)) dt 2 { order := 2 } 0 twoState with
    | none => rw [hr] at h; cases h
    | some r => rw [hr] at h; exact ⟨r, rfl, of_decide_eq_true h⟩

end Verif

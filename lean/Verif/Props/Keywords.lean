import Verif.Spec.Keywords
import Verif.Props.StepperInit
/-!
# C93: arguments of the time steppers
-/

namespace Verif

/-! ## `order` and `stages` -/

/-- `order` may be any whole number from 1 to 4, unless it is one of numpy's integers. -/
theorem order_accepted_iff (v : KwVal) (k : Nat) :
    orderOf v = .ok k ↔ v.number = some (k : Rat) ∧ 1 ≤ k ∧ k ≤ 4 ∧ ¬ v.IsNumpyInt := by
  have key : ∀ n : Int, (if 1 ≤ n ∧ n ≤ 4 then Except.ok n.toNat else Except.error Err.valueError) = .ok k ↔
      (some (n : Rat) = some (k : Rat) ∧ 1 ≤ k ∧ k ≤ 4) := by
    intro n
    constructor
    · intro h
      split at h
      · injection h with h
        rename_i hn
        have hk : (k : Int) = n := by omega
        refine ⟨?_, by omega, by omega⟩
        rw [← hk]
        rfl
      · cases h
    · rintro ⟨h, h1, h2⟩
      injection h with h
      have hn : n = (k : Int) := by exact_mod_cast h
      subst hn
      rw [if_pos (by omega)]
      rfl
  unfold orderOf KwVal.wholeToInt KwVal.number KwVal.IsNumpyInt
  cases v with
  | int n => simpa using key n
  | float q =>
    dsimp only
    by_cases hq : q.den = 1
    · rw [if_pos hq]
      have e : (q.num : Rat) = q := Rat.coe_int_num_of_den_eq_one hq
      have := key q.num
      rw [e] at this
      simpa using this
    · rw [if_neg hq]
      constructor
      · intro h; cases h
      · rintro ⟨h, -⟩
        injection h with h
        exact absurd (by rw [h]; exact Rat.den_natCast k) hq
  | bool b =>
    cases b with
    | true =>
      constructor
      · intro h; injection h with h; subst h; simp
      · rintro ⟨h, -⟩
        injection h with h
        have : k = 1 := by exact_mod_cast h.symm
        rw [this]; rfl
    | false =>
      constructor
      · intro h; cases h
      · rintro ⟨h, h1, -⟩
        injection h with h
        have : k = 0 := by exact_mod_cast h.symm
        omega
  | none => simp
  | nonFinite => simp
  | npInt n => simp
  | str s => simp
  | other t => simp

/-- What is no whole number raises TypeError, and a whole number that is too small or too
large raises ValueError; nothing else is raised. -/
theorem order_rejected (v : KwVal) :
    (∃ k, orderOf v = .ok k) ∨
    (orderOf v = .error .typeError ∧ ((∀ n : Int, v.number ≠ some (n : Rat)) ∨ v.IsNumpyInt)) ∨
    (orderOf v = .error .valueError ∧ ∃ n : Int, v.number = some (n : Rat) ∧ (n < 1 ∨ 4 < n)) := by
  have key : ∀ n : Int, (if 1 ≤ n ∧ n ≤ 4 then Except.ok n.toNat else Except.error Err.valueError) = .error .valueError ∧
      (n < 1 ∨ 4 < n) ∨ ∃ k, (if 1 ≤ n ∧ n ≤ 4 then Except.ok n.toNat else Except.error Err.valueError) = .ok k := by
    intro n
    by_cases h : 1 ≤ n ∧ n ≤ 4
    · exact .inr ⟨n.toNat, if_pos h⟩
    · exact .inl ⟨if_neg h, by omega⟩
  unfold orderOf KwVal.wholeToInt KwVal.number KwVal.IsNumpyInt
  cases v with
  | int n =>
    rcases key n with ⟨h, h'⟩ | h
    · exact .inr (.inr ⟨h, n, rfl, h'⟩)
    · exact .inl h
  | float q =>
    dsimp only
    by_cases hq : q.den = 1
    · rw [if_pos hq]
      rcases key q.num with ⟨h, h'⟩ | h
      · exact .inr (.inr ⟨h, q.num, congrArg some (Rat.coe_int_num_of_den_eq_one hq).symm, h'⟩)
      · exact .inl h
    · rw [if_neg hq]
      refine .inr (.inl ⟨rfl, .inl fun n h => hq ?_⟩)
      injection h with h
      rw [h]
      exact Rat.den_intCast n
  | bool b =>
    cases b with
    | true => exact .inl ⟨1, rfl⟩
    | false => exact .inr (.inr ⟨rfl, 0, rfl, .inl (by decide)⟩)
  | none => exact .inr (.inl ⟨rfl, .inl fun n h => by cases h⟩)
  | nonFinite => exact .inr (.inl ⟨rfl, .inl fun n h => by cases h⟩)
  | npInt n => exact .inr (.inl ⟨rfl, .inr ⟨n, rfl⟩⟩)
  | str s => exact .inr (.inl ⟨rfl, .inl fun n h => by cases h⟩)
  | other t => exact .inr (.inl ⟨rfl, .inl fun n h => by cases h⟩)

/-- What fails: an order that is one of numpy's integers is rejected as not being an integer,
while the same number as one of numpy's floats is accepted. -/
theorem numpy_order_rejected (n : Int) : orderOf (.npInt n) = .error .typeError ∧
    (1 ≤ n ∧ n ≤ 4 → orderOf (.float n) = .ok n.toNat) := by
  refine ⟨rfl, fun h => ?_⟩
  rw [order_accepted_iff]
  refine ⟨?_, by omega, by omega, fun ⟨m, hm⟩ => by cases hm⟩
  show some (n : Rat) = some ((n.toNat : Nat) : Rat)
  have : ((n.toNat : Nat) : Int) = n := by omega
  congr 1
  exact_mod_cast this.symm

/-- The steppers the theorems about runs start with are those of these arguments: with a whole
number from 1 to 4 as order both are made, with nothing remembered, and any other integer raises
ValueError in both. -/
theorem order_makes (n : Int) :
    (1 ≤ n ∧ n ≤ 4 → ∃ k : Nat, (k : Int) = n ∧ orderOf (.int n) = .ok k ∧ AB.make n = .ok ⟨k, none, []⟩) ∧
    (n < 1 ∨ 4 < n → orderOf (.int n) = .error .valueError ∧ AB.make n = .error .valueError) := by
  refine ⟨fun h => ⟨n.toNat, by omega, ?_, if_pos h⟩, fun h => ?_⟩
  · rw [order_accepted_iff]
    refine ⟨?_, by omega, by omega, fun ⟨m, hm⟩ => by cases hm⟩
    show some (n : Rat) = some ((n.toNat : Nat) : Rat)
    have : ((n.toNat : Nat) : Int) = n := by omega
    congr 1
    exact_mod_cast this.symm
  · have hn : ¬ (1 ≤ n ∧ n ≤ 4) := by omega
    exact ⟨if_neg hn, if_neg hn⟩

theorem eqInt_iff (v : KwVal) (n : Int) : v.eqInt n = true ↔ v.number = some (n : Rat) := by
  unfold KwVal.eqInt KwVal.number
  cases v with
  | bool b => cases b <;> simp <;> norm_cast
  | int m => simp
  | float q => simp
  | npInt m => simp
  | none => simp
  | nonFinite => simp
  | str s => simp
  | other t => simp

/-- `stages` may be any value that equals 2 or 3; everything else raises ValueError. -/
theorem stages_accepted_iff (v : KwVal) (three : Bool) :
    stagesOf v = .ok three ↔ v.number = some (if three then 3 else 2) := by
  unfold stagesOf
  have h2 := eqInt_iff v 2
  have h3 := eqInt_iff v 3
  cases three with
  | false =>
    by_cases h : v.eqInt 2 = true
    · rw [if_pos h]; simpa using h2.1 h
    · rw [if_neg h]
      have : ¬ v.number = some 2 := fun hc => h (h2.2 (by simpa using hc))
      split <;> simpa using this
  | true =>
    by_cases h : v.eqInt 2 = true
    · rw [if_pos h]
      have := h2.1 h
      simp [this]
    · rw [if_neg h]
      by_cases h' : v.eqInt 3 = true
      · rw [if_pos h']; simpa using h3.1 h'
      · rw [if_neg h']
        have : ¬ v.number = some 3 := fun hc => h' (h3.2 (by simpa using hc))
        simpa using this

theorem stages_rejected (v : KwVal) (h2 : v.number ≠ some 2) (h3 : v.number ≠ some 3) : stagesOf v = .error .valueError := by
  unfold stagesOf
  rw [if_neg fun h => h2 (by simpa using (eqInt_iff v 2).1 h), if_neg fun h => h3 (by simpa using (eqInt_iff v 3).1 h)]

/-! ## Keywords -/

theorem popValue_iff {kw : Dict KwVal} (hn : kw.keys.Nodup) (k : String) (d v : KwVal) :
    popValue kw k d = v ↔ KwOr kw k d v := by
  unfold popValue KwOr
  cases h : kw.get? k with
  | none =>
    have hk : k ∉ kw.keys := (Dict.get?_eq_none_iff _ _).1 h
    constructor
    · intro e; exact .inr ⟨hk, e.symm⟩
    · rintro (hm | ⟨-, e⟩)
      · exact absurd (Dict.mem_keys_of_mem hm) hk
      · exact e.symm
  | some w =>
    have hm := Dict.mem_of_get? h
    constructor
    · intro e; exact .inl (by rw [← e]; exact hm)
    · rintro (hm' | ⟨hk, -⟩)
      · have := Dict.get?_of_mem hn hm'
        rw [h] at this
        injection this
      · exact absurd (Dict.mem_keys_of_mem hm) hk

theorem kwOr_erase {kw : Dict KwVal} (hn : kw.keys.Nodup) {q k : String} (h : q ≠ k) (d v : KwVal) :
    KwOr (kw.erase q) k d v ↔ KwOr kw k d v := by
  have hn' : (kw.erase q).keys.Nodup := by rw [Dict.keys_erase]; exact hn.erase _
  rw [← popValue_iff hn', ← popValue_iff hn]
  unfold popValue
  rw [Dict.get?_erase_ne _ h]

theorem documented_erase {kw : Dict KwVal} (hn : kw.keys.Nodup) (q : String) (own : List String) :
    Documented own (kw.erase q) ↔ Documented (q :: own) kw := by
  unfold Documented
  rw [Dict.keys_erase]
  constructor
  · intro h k hk
    by_cases e : k = q
    · exact .inl (by rw [e]; exact List.mem_cons_self ..)
    · rcases h k ((List.mem_erase_of_ne e).2 hk) with h | h
      · exact .inl (List.mem_cons_of_mem _ h)
      · exact .inr h
  · intro h k hk
    have hk' := hn.mem_erase_iff.1 hk
    rcases h k hk'.2 with h | h
    · rcases List.mem_cons.1 h with h | h
      · exact absurd h hk'.1
      · exact .inl h
    · exact .inr h

theorem named_erase (fmt : KwVal → String) (cls : String) {kw : Dict KwVal} (hn : kw.keys.Nodup) {q : String} (h : q ≠ "name")
    (name : String) : Named fmt cls (kw.erase q) name ↔ Named fmt cls kw name := by
  unfold Named
  simp only [kwOr_erase hn h]

theorem asks_erase {kw : Dict KwVal} (hn : kw.keys.Nodup) {q : String} (h : q ≠ "tendencies_in_diagnostics")
    (tid : Bool) : AsksTendencies (kw.erase q) tid ↔ AsksTendencies kw tid := by
  unfold AsksTendencies
  simp only [kwOr_erase hn h]

theorem stepperKeywords_iff (fmt : KwVal → String) (cls : String) {kw : Dict KwVal} (hn : kw.keys.Nodup) (tid : Bool)
    (name : String) :
    stepperKeywords fmt cls kw = .ok (tid, name) ↔ Documented [] kw ∧ AsksTendencies kw tid ∧ Named fmt cls kw name := by
  unfold stepperKeywords
  have hd : Documented [] kw ↔ ∀ k ∈ kw.keys, k = "tendencies_in_diagnostics" ∨ k = "name" := by
    unfold Documented
    simp
  by_cases h : ∀ k ∈ kw.keys, k = "tendencies_in_diagnostics" ∨ k = "name"
  · rw [if_pos h]
    have ha : AsksTendencies kw tid ↔ tid = (popValue kw "tendencies_in_diagnostics" (.bool false)).truthy := by
      unfold AsksTendencies
      simp only [← popValue_iff hn, exists_eq_left']
    have hb : Named fmt cls kw name ↔ name = nameText fmt cls (popValue kw "name" .none) := by
      unfold Named
      simp only [← popValue_iff hn, exists_eq_left']
      unfold nameText
      generalize popValue kw "name" .none = v
      cases ht : v.truthy with
      | false => simp
      | true => cases v <;> simp [eq_comm]
    rw [ha, hb]
    constructor
    · intro e
      injection e with e
      injection e with e1 e2
      exact ⟨hd.2 h, e1.symm, e2.symm⟩
    · rintro ⟨-, e1, e2⟩
      rw [e1, e2]
  · rw [if_neg h]
    constructor
    · intro e; cases e
    · rintro ⟨e, -⟩
      exact absurd (hd.1 e) h

/-! ## Positional arguments -/

theorem argsOf_comps (cs : List (Class × Obj)) : argsOf (cs.map .comp) = .ok cs := by
  have h : (cs.map Arg.comp).mapM (m := Except Err) (fun a => match a with | .comp c => .ok c | .list _ => .error .typeError) = .ok cs := by
    induction cs with
    | nil => rfl
    | cons c cs ih =>
      rw [List.map_cons, List.mapM_cons, ih]
      rfl
  unfold argsOf
  split
  · rename_i l e
    exfalso
    cases cs with
    | nil => cases e
    | cons c cs => cases e
  · exact h

theorem argsOf_iff (args : List Arg) (cs : List (Class × Obj)) : argsOf args = .ok cs ↔ Given args cs := by
  constructor
  · intro h
    unfold argsOf at h
    split at h
    · injection h with h
      exact .inr (by rw [h])
    · left
      clear * - h
      induction args generalizing cs with
      | nil => injection h with h; rw [← h]; rfl
      | cons a args ih =>
        rw [List.mapM_cons] at h
        obtain ⟨c, h1, h⟩ := Exc.bind_ok_iff.1 h
        obtain ⟨cs', h2, h⟩ := Exc.bind_ok_iff.1 h
        have h3 : Except.ok (ε := Err) (c :: cs') = Except.ok cs := h
        injection h3 with h3
        cases a with
        | list l => cases h1
        | comp c' =>
          injection h1 with h1
          rw [← h3, ih cs' h2, h1]
          rfl
  · rintro (h | h)
    · rw [h]; exact argsOf_comps cs
    · rw [h]; rfl

/-- A list of components stands for the components. -/
theorem list_argument (cs : List (Class × Obj)) : argsOf [.list cs] = argsOf (cs.map .comp) := (argsOf_comps cs).symm

/-! ## The constructors -/

section
variable (R : Registry) (o : SetOrder) (g : Tracers) (fmt : KwVal → String)

theorem tsInit_iff (cls : String) (args : List Arg) {kw : Dict KwVal} (hn : kw.keys.Nodup) (tid : Bool) (name : String)
    (cs : List (Class × Obj)) (c : Class) :
    tsInit R o g fmt cls args kw = .ok (tid, name, cs, c) ↔
      Given args cs ∧ Documented [] kw ∧ AsksTendencies kw tid ∧ Named fmt cls kw name ∧ tsConstruct R o g cs tid name = .ok c := by
  unfold tsInit
  constructor
  · intro h
    obtain ⟨cs', h1, h⟩ := Exc.bind_ok_iff.1 h
    obtain ⟨comp, -, h⟩ := Exc.bind_ok_iff.1 h
    obtain ⟨⟨tid', name'⟩, h2, h⟩ := Exc.bind_ok_iff.1 h
    obtain ⟨c', h3, h⟩ := Exc.bind_ok_iff.1 h
    injection h with h
    injection h with e1 h
    injection h with e2 h
    injection h with e3 e4
    dsimp only at e1 e2
    subst e1 e2 e3 e4
    obtain ⟨k1, k2, k3⟩ := (stepperKeywords_iff fmt cls hn _ _).1 h2
    exact ⟨(argsOf_iff _ _).1 h1, k1, k2, k3, h3⟩
  · rintro ⟨h1, k1, k2, k3, h3⟩
    obtain ⟨⟨comp, hc, -⟩, -⟩ := tsConstruct_parts h3
    rw [(argsOf_iff _ _).2 h1, Exc.ok_bind, hc, Exc.ok_bind, (stepperKeywords_iff fmt cls hn tid name).2 ⟨k1, k2, k3⟩,
      Exc.ok_bind, h3, Exc.ok_bind]

/-- **C93**, AdamsBashforth. -/
theorem adams_bashforth_arguments_partial (args : List Arg) {kw : Dict KwVal} (hn : kw.keys.Nodup) (ab : AB) (tid : Bool)
    (name : String) (cs : List (Class × Obj)) (c : Class) :
    makeAB R o g fmt args kw = .ok (ab, tid, name, cs, c) ↔
      (∃ v, KwOr kw "order" (.int 3) v ∧ v.number = some (ab.order : Rat) ∧ ¬ v.IsNumpyInt) ∧ 1 ≤ ab.order ∧ ab.order ≤ 4 ∧
      ab.timestep = none ∧ ab.hist = [] ∧ Given args cs ∧ Documented ["order"] kw ∧ AsksTendencies kw tid ∧
      Named fmt "AdamsBashforth" kw name ∧ tsConstruct R o g cs tid name = .ok c := by
  have hn' : (kw.erase "order").keys.Nodup := by rw [Dict.keys_erase]; exact hn.erase _
  have hi := tsInit_iff R o g fmt "AdamsBashforth" args hn' tid name cs c
  rw [documented_erase hn, asks_erase hn (by decide), named_erase fmt _ hn (by decide)] at hi
  unfold makeAB
  constructor
  · intro h
    obtain ⟨k, h1, h⟩ := Exc.bind_ok_iff.1 h
    obtain ⟨t, h2, h⟩ := Exc.bind_ok_iff.1 h
    injection h with h
    injection h with e1 e2
    subst e1 e2
    obtain ⟨a1, a2, a3, a4⟩ := (order_accepted_iff _ _).1 h1
    exact ⟨⟨_, (popValue_iff hn _ _ _).1 rfl, a1, a4⟩, a2, a3, rfl, rfl, hi.1 h2⟩
  · rintro ⟨⟨v, v1, v2, v3⟩, a1, a2, a3, a4, h⟩
    rw [(popValue_iff hn _ _ _).2 v1, (order_accepted_iff v ab.order).2 ⟨v2, a1, a2, v3⟩, Exc.ok_bind, hi.2 h, Exc.ok_bind]
    obtain ⟨k, ts, hist⟩ := ab
    dsimp only at a3 a4
    rw [a3, a4]

/-- **C93**, SSPRungeKutta. The stages are Euler steps, with a stepper of its own. -/
theorem ssprk_arguments (args : List Arg) {kw : Dict KwVal} (hn : kw.keys.Nodup) (three : Bool) (euler : AB) (tid : Bool)
    (name : String) (cs : List (Class × Obj)) (c : Class) :
    makeSSP R o g fmt args kw = .ok (three, euler, tid, name, cs, c) ↔
      (∃ v, KwOr kw "stages" (.int 3) v ∧ v.number = some (if three then 3 else 2)) ∧ euler = { order := 1 } ∧
      Given args cs ∧ Documented ["stages"] kw ∧ AsksTendencies kw tid ∧ Named fmt "SSPRungeKutta" kw name ∧
      (∃ c', tsConstruct R o g cs false "AdamsBashforth" = .ok c') ∧ tsConstruct R o g cs tid name = .ok c := by
  have hn' : (kw.erase "stages").keys.Nodup := by rw [Dict.keys_erase]; exact hn.erase _
  have hi := tsInit_iff R o g fmt "SSPRungeKutta" args hn' tid name cs c
  rw [documented_erase hn, asks_erase hn (by decide), named_erase fmt _ hn (by decide)] at hi
  have ho : (Dict.keys [("order", KwVal.int 1)]).Nodup := List.nodup_singleton _
  have he := adams_bashforth_arguments_partial R o g fmt args ho
  have hg : ∀ cs cs', Given args cs → Given args cs' → cs = cs' := by
    intro cs cs' h h'
    have := ((argsOf_iff args cs).2 h).symm.trans ((argsOf_iff args cs').2 h')
    injection this
  unfold makeSSP
  constructor
  · intro h
    obtain ⟨b, h1, h⟩ := Exc.bind_ok_iff.1 h
    obtain ⟨⟨ab, tid', name', cs', c'⟩, h2, h⟩ := Exc.bind_ok_iff.1 h
    obtain ⟨t, h3, h⟩ := Exc.bind_ok_iff.1 h
    injection h with h
    injection h with e1 h
    injection h with e2 e3
    dsimp only at e2
    subst e1 e2 e3
    obtain ⟨g1, g2, g3, g4, g5⟩ := hi.1 h3
    obtain ⟨⟨v, v1, v2, v3⟩, a1, a2, a3, a4, a5, a6, ⟨w, a7, a7'⟩, ⟨x, a8, a8'⟩, a9⟩ := (he _ _ _ _ _).1 h2
    refine ⟨⟨_, (popValue_iff hn _ _ _).1 rfl, (stages_accepted_iff _ _).1 h1⟩, ?_, g1, g2, g3, g4, ?_, g5⟩
    · have hv : v = .int 1 := by
        rw [← popValue_iff ho] at v1
        exact v1.symm
      subst hv
      injection v2 with v2
      obtain ⟨k, ts, hist⟩ := ab
      dsimp only at a3 a4 v2
      have : k = 1 := by exact_mod_cast v2.symm
      rw [a3, a4, this]
    · have hw : w = .bool false := by
        rw [← popValue_iff ho] at a7
        exact a7.symm
      have hx : x = .none := by
        rw [← popValue_iff ho] at a8
        exact a8.symm
      subst hw hx
      rcases a8' with ⟨-, a8'⟩ | ⟨a8', -⟩
      · subst a7' a8'
        rw [hg _ _ g1 a5]
        exact ⟨c', a9⟩
      · cases a8'
  · rintro ⟨⟨v, v1, v2⟩, a1, a2, a3, a4, a5, ⟨c', a6⟩, a7⟩
    have h2 := (he { order := 1 } false "AdamsBashforth" cs c').2 ⟨⟨.int 1, .inl (List.mem_cons_self ..), rfl,
      fun ⟨n, hc⟩ => by cases hc⟩, le_refl _, by decide, rfl, rfl, a2, by
        intro k hk
        exact .inl hk, ⟨.bool false, .inr ⟨by decide, rfl⟩, rfl⟩, ⟨.none, .inr ⟨by decide, rfl⟩, .inl ⟨rfl, rfl⟩⟩, a6⟩
    rw [(popValue_iff hn _ _ _).2 v1, (stages_accepted_iff v three).2 v2, Exc.ok_bind, h2, Exc.ok_bind,
      hi.2 ⟨a2, a3, a4, a5, a7⟩, Exc.ok_bind, a1]

/-- **C93**, Leapfrog. -/
theorem leapfrog_arguments (args : List Arg) {kw : Dict KwVal} (hn : kw.keys.Nodup) (strength alpha : KwVal) (tid : Bool)
    (name : String) (cs : List (Class × Obj)) (c : Class) :
    makeLF R o g fmt args kw = .ok (strength, alpha, tid, name, cs, c) ↔
      KwOr kw "asselin_strength" (.float (1 / 20)) strength ∧ KwOr kw "alpha" (.float (1 / 2)) alpha ∧
      Given args cs ∧ Documented ["asselin_strength", "alpha"] kw ∧ AsksTendencies kw tid ∧ Named fmt "Leapfrog" kw name ∧
      tsConstruct R o g cs tid name = .ok c := by
  have hn1 : (kw.erase "asselin_strength").keys.Nodup := by rw [Dict.keys_erase]; exact hn.erase _
  have hn2 : ((kw.erase "asselin_strength").erase "alpha").keys.Nodup := by rw [Dict.keys_erase]; exact hn1.erase _
  have hi := tsInit_iff R o g fmt "Leapfrog" args hn2 tid name cs c
  rw [documented_erase hn1, documented_erase hn, asks_erase hn1 (by decide), asks_erase hn (by decide),
    named_erase fmt _ hn1 (by decide), named_erase fmt _ hn (by decide)] at hi
  unfold makeLF
  rw [← popValue_iff hn, ← popValue_iff hn]
  constructor
  · intro h
    obtain ⟨t, h2, h⟩ := Exc.bind_ok_iff.1 h
    injection h with h
    injection h with e1 h
    injection h with e2 e3
    subst e3
    exact ⟨e1, e2, hi.1 h2⟩
  · rintro ⟨e1, e2, h⟩
    rw [hi.2 h, Exc.ok_bind, e1, e2]

/-! ## The order of keywords, undocumented keywords, equal numbers -/

variable {R o g fmt}

theorem stepperKeywords_congr (cls : String) {kw kw' : Dict KwVal} (h : ∀ k, kw.get? k = kw'.get? k) :
    stepperKeywords fmt cls kw = stepperKeywords fmt cls kw' := by
  have hk : ∀ k, k ∈ kw.keys ↔ k ∈ kw'.keys := by
    intro k
    have a := Dict.get?_eq_none_iff kw k
    have b := Dict.get?_eq_none_iff kw' k
    rw [h k] at a
    exact not_iff_not.1 (a.symm.trans b)
  have hp : ∀ k d, popValue kw k d = popValue kw' k d := fun k d => by unfold popValue; rw [h k]
  unfold stepperKeywords
  simp only [hk, hp]

theorem erase_congr {kw kw' : Dict KwVal} (hn : kw.keys.Nodup) (hn' : kw'.keys.Nodup) (h : ∀ k, kw.get? k = kw'.get? k)
    (q k : String) : (kw.erase q).get? k = (kw'.erase q).get? k := by
  by_cases e : q = k
  · rw [← e, Dict.get?_erase_self hn, Dict.get?_erase_self hn']
  · rw [Dict.get?_erase_ne _ e, Dict.get?_erase_ne _ e, h]

theorem tsInit_congr (cls : String) (args : List Arg) {kw kw' : Dict KwVal} (h : ∀ k, kw.get? k = kw'.get? k) :
    tsInit R o g fmt cls args kw = tsInit R o g fmt cls args kw' := by
  unfold tsInit
  rw [stepperKeywords_congr cls h]

theorem get?_of_perm {kw kw' : Dict KwVal} (hn : kw.keys.Nodup) (hp : kw.Perm kw') (k : String) : kw.get? k = kw'.get? k := by
  have hn' : kw'.keys.Nodup := (hp.map _).nodup_iff.1 hn
  cases h : kw.get? k with
  | some v => exact (Dict.get?_of_mem hn' (hp.mem_iff.1 (Dict.mem_of_get? h))).symm
  | none =>
    refine ((Dict.get?_eq_none_iff _ _).2 fun hk => ?_).symm
    exact (Dict.get?_eq_none_iff _ _).1 h ((hp.map _).mem_iff.2 hk)

/-- **C93.** The order in which keywords are given makes no difference, to what is made or to what
is raised. -/
theorem keyword_order_irrelevant (args : List Arg) {kw kw' : Dict KwVal} (hn : kw.keys.Nodup) (hp : kw.Perm kw') :
    makeAB R o g fmt args kw = makeAB R o g fmt args kw' ∧ makeSSP R o g fmt args kw = makeSSP R o g fmt args kw' ∧
    makeLF R o g fmt args kw = makeLF R o g fmt args kw' := by
  have hn' : kw'.keys.Nodup := (hp.map _).nodup_iff.1 hn
  have h := get?_of_perm hn hp
  have hv : ∀ k d, popValue kw k d = popValue kw' k d := fun k d => by unfold popValue; rw [h k]
  have h1 := fun q => erase_congr hn hn' h q
  have hm : ∀ q, (kw.erase q).keys.Nodup := fun q => by rw [Dict.keys_erase]; exact hn.erase _
  have hm' : ∀ q, (kw'.erase q).keys.Nodup := fun q => by rw [Dict.keys_erase]; exact hn'.erase _
  refine ⟨?_, ?_, ?_⟩
  · unfold makeAB
    rw [hv, tsInit_congr _ args (h1 _)]
  · unfold makeSSP
    rw [hv, tsInit_congr _ args (h1 _)]
  · unfold makeLF
    rw [hv, hv, tsInit_congr _ args (erase_congr (hm _) (hm' _) (h1 _) _)]

theorem tsInit_undocumented (cls : String) {args : List Arg} {cs : List (Class × Obj)} (hg : Given args cs)
    (hc : ∃ c, compositeConstruct R o g .implicit cs = .ok c) {kw : Dict KwVal} {k : String} (hk : k ∈ kw.keys)
    (h1 : k ≠ "tendencies_in_diagnostics") (h2 : k ≠ "name") : tsInit R o g fmt cls args kw = .error .typeError := by
  obtain ⟨c, hc⟩ := hc
  unfold tsInit
  rw [(argsOf_iff _ _).2 hg, Exc.ok_bind, hc, Exc.ok_bind]
  unfold stepperKeywords
  rw [if_neg fun h => (h k hk).elim h1 h2]
  rfl

/-- **C93.** A keyword that is not documented, a misspelt one for instance, is never ignored: it
raises TypeError (if there is nothing else to raise). -/
theorem undocumented_keyword {args : List Arg} {cs : List (Class × Obj)} (hg : Given args cs)
    (hc : ∃ c, tsConstruct R o g cs false "AdamsBashforth" = .ok c) {kw : Dict KwVal} {k : String} (hk : k ∈ kw.keys)
    (h1 : k ≠ "tendencies_in_diagnostics") (h2 : k ≠ "name") :
    (k ≠ "order" → (∃ n, orderOf (popValue kw "order" (.int 3)) = .ok n) → makeAB R o g fmt args kw = .error .typeError) ∧
    (k ≠ "stages" → (∃ b, stagesOf (popValue kw "stages" (.int 3)) = .ok b) → makeSSP R o g fmt args kw = .error .typeError) ∧
    (k ≠ "asselin_strength" → k ≠ "alpha" → makeLF R o g fmt args kw = .error .typeError) := by
  obtain ⟨c, hc⟩ := hc
  obtain ⟨⟨comp, hcomp, -⟩, -⟩ := tsConstruct_parts hc
  have hm : ∀ {d : Dict KwVal} {q : String}, k ∈ d.keys → k ≠ q → k ∈ (d.erase q).keys := by
    intro d q hk hq
    rw [Dict.keys_erase]
    exact (List.mem_erase_of_ne hq).2 hk
  refine ⟨fun hq => ?_, fun hq => ?_, fun hq hq' => ?_⟩
  · rintro ⟨n, hn⟩
    unfold makeAB
    rw [hn, Exc.ok_bind, tsInit_undocumented _ hg ⟨comp, hcomp⟩ (hm hk hq) h1 h2]
    rfl
  · rintro ⟨b, hb⟩
    have ho : (Dict.keys [("order", KwVal.int 1)]).Nodup := List.nodup_singleton _
    have he := (adams_bashforth_arguments_partial R o g fmt args ho { order := 1 } false "AdamsBashforth" cs c).2
      ⟨⟨.int 1, .inl (List.mem_cons_self ..), rfl, fun ⟨n, hc⟩ => by cases hc⟩, le_refl _, by decide, rfl, rfl, hg,
        fun k hk => .inl hk, ⟨.bool false, .inr ⟨by decide, rfl⟩, rfl⟩, ⟨.none, .inr ⟨by decide, rfl⟩, .inl ⟨rfl, rfl⟩⟩, hc⟩
    unfold makeSSP
    rw [hb, Exc.ok_bind, he, Exc.ok_bind, tsInit_undocumented _ hg ⟨comp, hcomp⟩ (hm hk hq) h1 h2]
    rfl
  · unfold makeLF
    rw [tsInit_undocumented _ hg ⟨comp, hcomp⟩ (hm (hm hk hq) hq') h1 h2]
    rfl

/-- **C93.** Components may be given one by one or as a list. -/
theorem components_as_list (cs : List (Class × Obj)) (kw : Dict KwVal) :
    makeAB R o g fmt [.list cs] kw = makeAB R o g fmt (cs.map .comp) kw ∧
    makeSSP R o g fmt [.list cs] kw = makeSSP R o g fmt (cs.map .comp) kw ∧
    makeLF R o g fmt [.list cs] kw = makeLF R o g fmt (cs.map .comp) kw := by
  have h : ∀ cls kw, tsInit R o g fmt cls [.list cs] kw = tsInit R o g fmt cls (cs.map .comp) kw := by
    intro cls kw
    unfold tsInit
    rw [list_argument]
  refine ⟨?_, ?_, ?_⟩
  · unfold makeAB; rw [h]
  · unfold makeSSP makeAB; rw [h, h]
  · unfold makeLF; rw [h]

/-- **C93.** The three time steppers accept the same components. -/
theorem steppers_accept_alike (args : List Arg) :
    ((∃ r, makeSSP R o g fmt args [] = .ok r) ↔ ∃ r, makeAB R o g fmt args [] = .ok r) ∧
    ((∃ r, makeLF R o g fmt args [] = .ok r) ↔ ∃ r, makeAB R o g fmt args [] = .ok r) := by
  have hn : (Dict.keys ([] : Dict KwVal)).Nodup := List.nodup_nil
  have hplain : ∀ cs a b, tsConstruct R o g cs false a = tsConstruct R o g cs false b := by
    intro cs a b
    unfold tsConstruct
    congr 1
    funext comp
    have e : tsClass R o g (cs.map (·.1)) false a = tsClass R o g (cs.map (·.1)) false b := rfl
    rw [e]
    congr 1
    funext c
    have e' : ∀ {β : Type} (k : Except Err β), ((construct R g c false a).2.2 >>= fun _ => k) =
        ((construct R g c false b).2.2 >>= fun _ => k) := by
      intro β k
      unfold construct
      cases runCheckers R c with
      | error e => rfl
      | ok _ =>
        simp only [Bool.false_eq_true, if_false]
        generalize (makePacker g c).2 = z
        cases z <;> rfl
    exact e' _
  have hdoc : ∀ own, Documented own ([] : Dict KwVal) := fun own k hk => by cases hk
  have hasks : ∀ {tid}, AsksTendencies ([] : Dict KwVal) tid → tid = false := by
    rintro tid ⟨v, hv | ⟨-, hv⟩, h⟩
    · cases hv
    · rw [h, hv]; rfl
  have hask : AsksTendencies ([] : Dict KwVal) false := ⟨.bool false, .inr ⟨List.not_mem_nil, rfl⟩, rfl⟩
  have hnm : ∀ cls, Named fmt cls ([] : Dict KwVal) cls := fun cls => ⟨.none, .inr ⟨List.not_mem_nil, rfl⟩, .inl ⟨rfl, rfl⟩⟩
  have hAB : (∃ r, makeAB R o g fmt args [] = .ok r) ↔
      ∃ cs c, Given args cs ∧ tsConstruct R o g cs false "AdamsBashforth" = .ok c := by
    constructor
    · rintro ⟨⟨ab, tid, name, cs, c⟩, h⟩
      obtain ⟨-, -, -, -, -, a, -, b, -, d⟩ := (adams_bashforth_arguments_partial R o g fmt args hn _ _ _ _ _).1 h
      rw [hasks b, hplain cs name "AdamsBashforth"] at d
      exact ⟨cs, c, a, d⟩
    · rintro ⟨cs, c, a, d⟩
      exact ⟨_, (adams_bashforth_arguments_partial R o g fmt args hn { order := 3 } false "AdamsBashforth" cs c).2
        ⟨⟨.int 3, .inr ⟨List.not_mem_nil, rfl⟩, rfl, fun ⟨n, hc⟩ => by cases hc⟩, by decide, by decide, rfl, rfl, a, hdoc _, hask,
          hnm _, d⟩⟩
  constructor
  · rw [hAB]
    constructor
    · rintro ⟨⟨three, euler, tid, name, cs, c⟩, h⟩
      obtain ⟨-, -, a, -, -, -, ⟨c', d⟩, -⟩ := (ssprk_arguments R o g fmt args hn _ _ _ _ _ _).1 h
      exact ⟨cs, c', a, d⟩
    · rintro ⟨cs, c, a, d⟩
      exact ⟨_, (ssprk_arguments R o g fmt args hn true { order := 1 } false "SSPRungeKutta" cs c).2
        ⟨⟨.int 3, .inr ⟨List.not_mem_nil, rfl⟩, rfl⟩, rfl, a, hdoc _, hask, hnm _, ⟨c, d⟩, (hplain cs _ _).trans d⟩⟩
  · rw [hAB]
    constructor
    · rintro ⟨⟨s, al, tid, name, cs, c⟩, h⟩
      obtain ⟨-, -, a, -, b, -, d⟩ := (leapfrog_arguments R o g fmt args hn _ _ _ _ _ _).1 h
      rw [hasks b, hplain cs name "AdamsBashforth"] at d
      exact ⟨cs, c, a, d⟩
    · rintro ⟨cs, c, a, d⟩
      exact ⟨_, (leapfrog_arguments R o g fmt args hn (.float (1 / 20)) (.float (1 / 2)) false "Leapfrog" cs c).2
        ⟨.inr ⟨List.not_mem_nil, rfl⟩, .inr ⟨List.not_mem_nil, rfl⟩, a, hdoc _, hask, hnm _, (hplain cs _ _).trans d⟩⟩

end

/-! ## Concrete cases -/

def Demo.fmt : KwVal → String := fun _ => "object"

/-- A component that can be stepped. -/
def Demo.kwComp : Class × Obj := (Demo.warmCls "S", Demo.tendObj)

/-- The keywords of all three, in two orders, floats for ints, and a list of components. -/
example :
    Exc.test (makeAB Demo.pintReg Demo.order {} Demo.fmt [.comp Demo.kwComp]
      [("name", .str "ab"), ("order", .float 2)]) (fun r => r.1.order = 2 && r.2.2.1 = "ab" && !r.2.1) &&
    Exc.test (makeAB Demo.pintReg Demo.order {} Demo.fmt [.list [Demo.kwComp]]
      [("order", .int 2), ("name", .str "")]) (fun r => r.1.order = 2 && r.2.2.1 = "AdamsBashforth") &&
    Exc.test (makeSSP Demo.pintReg Demo.order {} Demo.fmt [.comp Demo.kwComp]
      [("stages", .npInt 2), ("tendencies_in_diagnostics", .int 1)]) (fun r => !r.1 && r.2.2.1) &&
    Exc.test (makeLF Demo.pintReg Demo.order {} Demo.fmt [.comp Demo.kwComp] [("alpha", .int 1)])
      (fun r => r.1 = .float (1 / 20) && r.2.1 = .int 1) &&
    Exc.failsWith (makeAB Demo.pintReg Demo.order {} Demo.fmt [.comp Demo.kwComp] [("ordr", .int 2)]) .typeError &&
    Exc.failsWith (makeAB Demo.pintReg Demo.order {} Demo.fmt [.comp Demo.kwComp] [("order", .npInt 2)]) .typeError &&
    Exc.failsWith (makeLF Demo.pintReg Demo.order {} Demo.fmt [.comp Demo.kwComp] [("order", .int 2)]) .typeError &&
    Exc.failsWith (makeSSP Demo.pintReg Demo.order {} Demo.fmt [.comp Demo.kwComp] [("stages", .int 4)]) .valueError &&
    Exc.failsWith (makeAB Demo.pintReg Demo.order {} Demo.fmt [.comp Demo.kwComp] [("order", .int 5)]) .valueError := by
  decide +kernel

end Verif

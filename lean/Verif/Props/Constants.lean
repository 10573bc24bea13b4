import Verif.Lemmas.Constants
import Verif.Props.Units
/-!
# C45 – C48: constants
-/

namespace Verif

/-! ## C47: resolution terminates -/

/-- **C47.**  For any table of aliases, `get_alias` returns the name at the end of the
chain if that is at most 100 aliases away, and raises RuntimeError otherwise. -/
theorem get_alias_spec (al : Dict String) (n : String) :
    (∀ r, getAlias al n = .ok r ↔ ∃ k, k ≤ 100 ∧ ResolvesIn al k n r) ∧
    (getAlias al n = .error .runtimeError ↔ ¬ ∃ k r, k ≤ 100 ∧ ResolvesIn al k n r) ∧
    ∀ e, getAlias al n = .error e → e = .runtimeError := by
  refine ⟨getAlias_ok_iff al n, ?_, fun e => getAlias_error⟩
  constructor
  · rintro h ⟨k, r, hk, hr⟩
    rw [(getAlias_ok_iff al n r).2 ⟨k, hk, hr⟩] at h
    cases h
  · intro h
    cases hg : getAlias al n with
    | ok r =>
      obtain ⟨k, hk, hr⟩ := (getAlias_ok_iff al n r).1 hg
      exact absurd ⟨k, r, hk, hr⟩ h
    | error e => rw [getAlias_error hg]

/-- **C47.**  With at most 100 aliases the limit on the iterations does not matter:
RuntimeError means that the chain never ends. -/
theorem get_alias_small_table (al : Dict String) (h : al.length ≤ 100) (n r : String) :
    getAlias al n = .ok r ↔ Resolves al n r := by
  rw [getAlias_ok_iff]
  constructor
  · rintro ⟨k, -, hk⟩
    exact ⟨k, hk⟩
  · rintro ⟨k, hk⟩
    exact ⟨k, Nat.le_trans (resolvesIn_le hk) h, hk⟩

/-- **C47.**  A chain that ends has no circle. -/
theorem not_circular_of_resolves {al : Dict String} (h : ∀ n, ∃ r, Resolves al n r) : ¬ Circular al := by
  rintro ⟨n, hn⟩
  have key : ∀ a b, Relation.TransGen (fun a b => al.get? a = some b) a b → ∀ k r, ResolvesIn al k a r →
      ∃ j, j < k ∧ ResolvesIn al j b r := by
    intro a b hab
    induction hab with
    | single hg =>
      intro k r hr
      cases hr with
      | here hn => exact absurd (Dict.mem_keys_of_get? hg) hn
      | step hg' hr =>
        rw [hg] at hg'
        injection hg' with hg'
        subst hg'
        exact ⟨_, Nat.lt_succ_self _, hr⟩
    | tail _ hg ih =>
      intro k r hr
      obtain ⟨j, hj, hr⟩ := ih k r hr
      cases hr with
      | here hn => exact absurd (Dict.mem_keys_of_get? hg) hn
      | step hg' hr =>
        rw [hg] at hg'
        injection hg' with hg'
        subst hg'
        exact ⟨_, by omega, hr⟩
  obtain ⟨r, k, hr⟩ := h n
  obtain ⟨j, hj, hr'⟩ := key n n hn k r hr
  have := (resolvesIn_det hr hr').1
  omega

/-- **C47.**  The loop that lists the aliases ends for any constants and aliases,
although its counter is never advanced: after at most one pass more than there are
aliases; more passes do not change the result. -/
theorem proxy_terminates (d : Dict Const) (al : Dict String) (hal : (Dict.keys al).Nodup) :
    ∃ d', ∀ n, al.length < n → proxyLoop al n d = some d' := by
  have hlen : ∀ d : Dict Const, ((Dict.keys al).filter (fun k => k ∉ Dict.keys d)).length ≤ al.length := by
    intro d
    have := List.length_filter_le (fun k => decide (k ∉ Dict.keys d)) (Dict.keys al)
    simpa [Dict.keys] using this
  have mono : ∀ n (d d' : Dict Const), proxyLoop al n d = some d' → ∀ k, proxyLoop al (n + k) d = some d' := by
    intro n
    induction n with
    | zero => intro d d' h; cases h
    | succ n ih =>
      intro d d' h k
      rw [Nat.succ_add]
      unfold proxyLoop at h ⊢
      dsimp only at h ⊢
      split at h
      · rename_i hn
        rw [if_pos hn]
        exact h
      · rename_i hn
        rw [if_neg hn]
        exact ih _ _ h k
  obtain ⟨d', hd'⟩ := proxyLoop_some al hal (al.length + 1) d (by have := hlen d; omega)
  refine ⟨d', fun n hn => ?_⟩
  have := mono _ _ _ hd' (n - (al.length + 1))
  rwa [Nat.add_sub_cancel' hn] at this

/-- **C47.**  What is listed: every name whose chain ends at a defined constant, with
that constant. -/
theorem proxy_lists (d : Dict Const) (al : Dict String) (hal : (Dict.keys al).Nodup)
    (hd : ∀ k ∈ Dict.keys d, k ∉ Dict.keys al) (q : String) (c : Const) :
    (proxyDict d al).get? q = some c ↔ ∃ r, Resolves al q r ∧ d.get? r = some c := by
  obtain ⟨d', hd'⟩ := proxy_terminates d al hal
  unfold proxyDict
  rw [hd' _ (Nat.lt_succ_self _)]
  refine proxyLoop_get? hal (al.length + 1) ?_ (fun _ _ h => h) (hd' _ (Nat.lt_succ_self _)) q c
  intro q c hq
  exact ⟨q, ⟨0, .here (hd q (Dict.mem_keys_of_get? hq))⟩, hq⟩

/-- Every name resolves, in at most two steps, if the condensible is not `phase`. -/
theorem aliasTable_resolves (x : String) (hx : x ≠ "phase") (n : String) :
    ∃ k r, k ≤ 2 ∧ ResolvesIn (aliasTable x) k n r := by
  have target : ∀ a v, (a, v) ∈ condensibleMap x → v ∉ Dict.keys (aliasTable x) := by
    intro a v hv
    unfold condensibleMap Dict.mapVal at hv
    obtain ⟨⟨a', ps⟩, hm, he⟩ := List.mem_map.1 hv
    injection he with _ he
    subst he
    rw [aliasTable_keys]
    exact fun h => hx (condensible_target (List.mem_map.2 ⟨_, hm, rfl⟩) h)
  cases hg : (aliasTable x).get? n with
  | none => exact ⟨0, n, by omega, .here ((Dict.get?_eq_none_iff _ _).1 hg)⟩
  | some v =>
    rcases List.mem_append.1 (Dict.mem_of_get? hg) with hm | hm
    · -- a default alias
      by_cases hv : v ∈ Dict.keys (aliasTable x)
      · obtain ⟨w, hw⟩ := Dict.get?_of_mem_keys hv
        rcases List.mem_append.1 (Dict.mem_of_get? hw) with hm' | hm'
        · exfalso
          have key : (defaultAliases.all fun kv => defaultAliases.all fun kv' => decide (kv.2 ≠ kv'.1)) = true := by
            decide +kernel
          rw [List.all_eq_true] at key
          have k1 := key _ hm
          rw [List.all_eq_true] at k1
          have k2 := k1 _ hm'
          simp at k2
        · exact ⟨2, w, by omega, .step hg (.step hw (.here (target v w hm')))⟩
      · exact ⟨1, v, by omega, .step hg (.here hv)⟩
    · exact ⟨1, v, by omega, .step hg (.here (target n v hm))⟩

/-! ## Histories -/

/-- What holds after every history: the default dictionaries are as at import, the
variables refer to other objects, the aliases are those of some condensible, and no
constant is stored under an alias. -/
structure ConstInv (m : CMem) (x : String) : Prop where
  defaults : m.consts.getD 0 [] = defaultConstants
  defaultAl : m.aliases.getD 0 [] = defaultAliases
  constants : 0 < m.constants ∧ m.constants < m.consts.length
  constantAliases : 0 < m.constantAliases ∧ m.constantAliases < m.aliases.length
  table : m.ad = aliasTable x
  disjoint : ∀ k ∈ Dict.keys m.cd, k ∉ Dict.keys (aliasTable "")
  nodup : (Dict.keys m.cd).Nodup
  defined : ∀ k ∈ Dict.keys defaultConstants, k ∈ Dict.keys m.cd

theorem getD_set_self {α : Type} {l : List α} {i : Nat} (h : i < l.length) (a d : α) :
    (l.set i a).getD i d = a := by
  simp [List.getD_eq_getElem?_getD, h]

theorem getD_set_ne {α : Type} {l : List α} {i j : Nat} (h : i ≠ j) (a d : α) :
    (l.set i a).getD j d = l.getD j d := by
  simp [List.getD_eq_getElem?_getD, h]

theorem getD_append_last {α : Type} (l : List α) (a d : α) : (l ++ [a]).getD l.length d = a := by
  simp [List.getD_eq_getElem?_getD]

theorem getD_append_zero {α : Type} {l : List α} (h : 0 < l.length) (a d : α) :
    (l ++ [a]).getD 0 d = l.getD 0 d := by
  simp [List.getD_eq_getElem?_getD, h]

theorem reset_inv {m : CMem} (h1 : m.consts.getD 0 [] = defaultConstants) (h2 : m.aliases.getD 0 [] = defaultAliases)
    (h3 : 0 < m.consts.length) (h4 : 0 < m.aliases.length) :
    ConstInv (resetConstants m) "water" ∧ (resetConstants m).cd = Dict.update [] defaultConstants := by
  have hcd : (resetConstants m).cd = Dict.update [] defaultConstants := by
    unfold CMem.cd resetConstants
    dsimp only
    rw [getD_append_last, h1]
  refine ⟨⟨?_, ?_, ?_, ?_, ?_, ?_, ?_, ?_⟩, hcd⟩
  · exact (getD_append_zero h3 _ _).trans h1
  · exact (getD_append_zero h4 _ _).trans h2
  · simp [resetConstants]; omega
  · simp [resetConstants]; omega
  · unfold CMem.ad resetConstants
    dsimp only
    rw [getD_append_last, h2]
    exact aliasTable_import
  · rw [hcd]
    decide +kernel
  · rw [hcd]
    decide +kernel
  · rw [hcd]
    decide +kernel

theorem import_inv : ConstInv importConstants "water" := (reset_inv rfl rfl (by simp) (by simp)).1

/-- **C47.**  Assigning to a key of the constants succeeds exactly if the chain of aliases
from it ends within 100 steps; then every name whose chain ends at the same key reads the new
value, every other name what it read before. -/
theorem constant_item_assigned (d : Dict Const) (al : Dict String) (n : String) (c : Const) :
    ((∃ d', constSet d al n c = .ok d') ↔ ∃ k r, k ≤ 100 ∧ ResolvesIn al k n r) ∧
    ∀ d', constSet d al n c = .ok d' → ∀ k r, k ≤ 100 → ResolvesIn al k n r →
      (∀ n' k', k' ≤ 100 → ResolvesIn al k' n' r → constItem d' al n' = .ok c) ∧
      ∀ n' k' r', k' ≤ 100 → ResolvesIn al k' n' r' → r' ≠ r → constItem d' al n' = constItem d al n' := by
  have hitem : ∀ (e : Dict Const) (n' : String) (k' : Nat) (r' : String), k' ≤ 100 → ResolvesIn al k' n' r' →
      constItem e al n' = e.get r' := by
    intro e n' k' r' hk hr
    unfold constItem
    by_cases hm : n' ∈ Dict.keys al
    · rw [if_pos hm, (getAlias_ok_iff al n' r').2 ⟨k', hk, hr⟩, Exc.ok_bind]
    · rw [if_neg hm]
      cases hr with
      | here _ => rfl
      | step h _ => exact absurd (Dict.mem_keys_of_get? h) hm
  have hset : ∀ (k : Nat) (r : String), k ≤ 100 → ResolvesIn al k n r → constSet d al n c = .ok (d.set r c) := by
    intro k r hk hr
    unfold constSet
    by_cases hm : n ∈ Dict.keys al
    · rw [if_pos hm, (getAlias_ok_iff al n r).2 ⟨k, hk, hr⟩, Exc.ok_bind]
    · rw [if_neg hm]
      cases hr with
      | here _ => rfl
      | step h _ => exact absurd (Dict.mem_keys_of_get? h) hm
  refine ⟨⟨?_, fun ⟨k, r, hk, hr⟩ => ⟨_, hset k r hk hr⟩⟩, fun d' h k r hk hr => ?_⟩
  · rintro ⟨d', h⟩
    unfold constSet at h
    by_cases hm : n ∈ Dict.keys al
    · rw [if_pos hm] at h
      obtain ⟨r, hr, -⟩ := Exc.bind_ok_iff.1 h
      obtain ⟨k, hk, hr⟩ := (getAlias_ok_iff al n r).1 hr
      exact ⟨k, r, hk, hr⟩
    · exact ⟨0, n, Nat.zero_le _, .here hm⟩
  · rw [hset k r hk hr] at h
    cases h
    refine ⟨fun n' k' hk' hr' => ?_, fun n' k' r' hk' hr' hne => ?_⟩
    · rw [hitem _ n' k' r hk' hr']
      exact Dict.get_eq_ok.2 (Dict.get?_set_self _ _ _)
    · rw [hitem _ n' k' r' hk' hr', hitem _ n' k' r' hk' hr']
      unfold Dict.get
      rw [Dict.get?_set_ne _ _ (Ne.symm hne)]

/-- A chain of two aliases: assigned under one name, read under another. -/
example : Exc.test (constSet [("g", ⟨9, "m s^-2"⟩), ("c", ⟨1, "m"⟩)] [("gravity", "g0"), ("g0", "g")] "gravity" ⟨10, "m s^-2"⟩)
    (fun d => Exc.test (constItem d [("gravity", "g0"), ("g0", "g")] "g0") (fun c => decide (c.value = 10)) &&
      Exc.test (constItem d [("gravity", "g0"), ("g0", "g")] "c") (fun c => decide (c.value = 1))) = true := by decide +kernel

/-- What a successful and a failed `set_constant` do. -/
theorem setConstant_spec (R : Registry) (m : CMem) (n : String) (v : Rat) (u : String) :
    ((setConstant R m n v u).2 = .ok () ↔ R.isValidUnit u = true ∧ ∃ r, getAlias m.ad n = .ok r) ∧
    (∀ e, (setConstant R m n v u).2 = .error e → (setConstant R m n v u).1 = m) ∧
    ((setConstant R m n v u).2 = .ok () → ∃ r, getAlias m.ad n = .ok r ∧
      (setConstant R m n v u).1 = { m with consts := m.consts.set m.constants (m.cd.set r ⟨v, u⟩) }) := by
  unfold setConstant
  by_cases hu : R.isValidUnit u = true
  · rw [if_pos hu]
    cases hg : getAlias m.ad n with
    | error e =>
      refine ⟨⟨fun h => (by cases h), fun h => ?_⟩, fun _ _ => rfl, fun h => (by cases h)⟩
      obtain ⟨-, r, hr⟩ := h
      cases hr
    | ok r =>
      obtain ⟨k, -, hk⟩ := (getAlias_ok_iff _ _ _).1 hg
      have hr : constSet m.cd m.ad r ⟨v, u⟩ = .ok (m.cd.set r ⟨v, u⟩) := by
        unfold constSet
        rw [if_neg (resolvesIn_not_alias hk)]
      rw [Exc.ok_bind, hr]
      exact ⟨⟨fun _ => ⟨hu, r, rfl⟩, fun _ => rfl⟩, fun e h => (by cases h), fun _ => ⟨r, rfl, rfl⟩⟩
  · rw [if_neg hu]
    exact ⟨⟨fun h => (by cases h), fun h => absurd h.1 hu⟩, fun _ _ => rfl, fun h => (by cases h)⟩

theorem op_inv (R : Registry) {m : CMem} {x : String} (h : ConstInv m x) (op : ConstOp) :
    ∃ x', ConstInv (op.run R m) x' ∧ (x' = x ∨ x' = "water" ∨ op = .condensible x') := by
  cases op with
  | set n v u =>
    refine ⟨x, ?_, .inl rfl⟩
    obtain ⟨-, h2, h3⟩ := setConstant_spec R m n v u
    show ConstInv (setConstant R m n v u).1 x
    cases hr : (setConstant R m n v u).2 with
    | error e => rw [h2 e hr]; exact h
    | ok _ =>
      obtain ⟨r, hg, he⟩ := h3 hr
      obtain ⟨k, -, hk⟩ := (getAlias_ok_iff _ _ _).1 hg
      have hra := resolvesIn_not_alias hk
      rw [h.table, aliasTable_keys] at hra
      rw [he]
      have hcd : ({ m with consts := m.consts.set m.constants (m.cd.set r ⟨v, u⟩) } : CMem).cd =
          m.cd.set r ⟨v, u⟩ := by
        unfold CMem.cd
        exact getD_set_self h.constants.2 _ _
      refine ⟨?_, h.defaultAl, ?_, h.constantAliases, h.table, ?_, ?_, ?_⟩
      · dsimp only
        rw [getD_set_ne (by have := h.constants.1; omega)]
        exact h.defaults
      · simpa using h.constants
      · rw [hcd]
        intro q hq
        rcases (Dict.mem_keys_set _ _ _ _).1 hq with rfl | hq
        · exact hra
        · exact h.disjoint q hq
      · rw [hcd]
        exact Dict.nodup_keys_set h.nodup _ _
      · rw [hcd]
        exact fun k hk => (Dict.mem_keys_set _ _ _ _).2 (.inr (h.defined k hk))
  | condensible y =>
    refine ⟨y, ?_, .inr (.inr rfl)⟩
    show ConstInv (setCondensible m y) y
    refine ⟨h.defaults, ?_, h.constants, ?_, ?_, h.disjoint, h.nodup, h.defined⟩
    · show (m.aliases.set m.constantAliases _).getD 0 [] = _
      rw [getD_set_ne (by have := h.constantAliases.1; omega)]
      exact h.defaultAl
    · simpa [setCondensible] using h.constantAliases
    · show (m.aliases.set m.constantAliases _).getD m.constantAliases [] = _
      rw [getD_set_self h.constantAliases.2, h.table]
      exact aliasTable_update x y
  | reset =>
    refine ⟨"water", ?_, .inr (.inl rfl)⟩
    exact (reset_inv h.defaults h.defaultAl (by have := h.constants; omega)
      (by have := h.constantAliases; omega)).1

/-- After every history; the condensible is one that was set. -/
theorem history_inv (R : Registry) (ops : List ConstOp) :
    ∃ x, ConstInv (afterHistory R ops) x ∧ (x = "water" ∨ .condensible x ∈ ops) := by
  have gen : ∀ (ops : List ConstOp) (m : CMem) (x : String), ConstInv m x →
      ∃ y, ConstInv (ops.foldl (ConstOp.run R) m) y ∧ (y = x ∨ y = "water" ∨ .condensible y ∈ ops) := by
    intro ops
    induction ops with
    | nil => exact fun m x h => ⟨x, h, .inl rfl⟩
    | cons op ops ih =>
      intro m x h
      obtain ⟨x', h', hx'⟩ := op_inv R h op
      obtain ⟨y, hy, hy'⟩ := ih _ _ h'
      refine ⟨y, hy, ?_⟩
      rcases hy' with rfl | rfl | hy'
      · rcases hx' with rfl | rfl | rfl
        · exact .inl rfl
        · exact .inr (.inl rfl)
        · exact .inr (.inr (by simp))
      · exact .inr (.inl rfl)
      · exact .inr (.inr (by simp [hy']))
  obtain ⟨x, hx, hx'⟩ := gen ops importConstants "water" import_inv
  refine ⟨x, hx, ?_⟩
  rcases hx' with h | h | h
  · exact .inl h
  · exact .inl h
  · exact .inr h

/-- **C47.**  After any history without `set_condensible_name('phase')` there is no
circular alias: every name resolves. -/
theorem no_circular_aliases (R : Registry) (ops : List ConstOp) (h : .condensible "phase" ∉ ops) :
    ¬ Circular (afterHistory R ops).ad ∧ ∀ n, ∃ r, getAlias (afterHistory R ops).ad n = .ok r := by
  obtain ⟨x, hx, hx'⟩ := history_inv R ops
  have hne : x ≠ "phase" := by
    rintro rfl
    rcases hx' with h' | h'
    · exact absurd h' (by decide)
    · exact h h'
  rw [hx.table]
  refine ⟨not_circular_of_resolves fun n => ?_, fun n => ?_⟩
  · obtain ⟨k, r, -, hr⟩ := aliasTable_resolves x hne n
    exact ⟨r, k, hr⟩
  · obtain ⟨k, r, hk, hr⟩ := aliasTable_resolves x hne n
    exact ⟨r, (getAlias_ok_iff _ _ _).2 ⟨k, by omega, hr⟩⟩

/-- **C47, the exception.**  `set_condensible_name('phase')` makes aliases of
themselves, and looking them up raises RuntimeError, after any history. -/
theorem phase_is_circular (R : Registry) (ops : List ConstOp) (u : String) :
    Circular (afterHistory R (ops ++ [.condensible "phase"])).ad ∧
    getConstant R (afterHistory R (ops ++ [.condensible "phase"])) "density_of_liquid_phase" u = .error .runtimeError := by
  obtain ⟨x, hx, -⟩ := history_inv R ops
  have hm : (afterHistory R (ops ++ [.condensible "phase"])).ad = aliasTable "phase" := by
    unfold afterHistory
    rw [List.foldl_append]
    show (setCondensible (afterHistory R ops) "phase").ad = _
    show ((afterHistory R ops).aliases.set (afterHistory R ops).constantAliases _).getD (afterHistory R ops).constantAliases [] = _
    rw [getD_set_self hx.constantAliases.2, hx.table]
    exact aliasTable_update x "phase"
  rw [hm]
  refine ⟨⟨"density_of_liquid_phase", .single (by decide +kernel)⟩, ?_⟩
  unfold getConstant
  rw [hm]
  have : getAlias (aliasTable "phase") "density_of_liquid_phase" = .error .runtimeError := by
    apply Exc.failsWith_error
    decide +kernel
  rw [this]
  rfl

/-! ## C45, C46 -/

/-- Looking up a constant that is defined. -/
theorem getConstant_eq (R : Registry) {m : CMem} {x : String} (h : ConstInv m x) (n u : String) :
    (∀ r, Resolves m.ad n r → getConstant R m n u =
      (m.cd.get r >>= fun c => c.da.toUnits R u >>= fun a => .ok (a.arr.get []))) ∧
    ((¬ ∃ r, Resolves m.ad n r) → getConstant R m n u = .error .runtimeError) := by
  have hlen : m.ad.length ≤ 100 := by rw [h.table, aliasTable_length]; omega
  constructor
  · intro r hr
    unfold getConstant
    rw [(get_alias_small_table _ hlen n r).2 hr, Exc.ok_bind]
    obtain ⟨k, hk⟩ := hr
    unfold constItem
    rw [if_neg (resolvesIn_not_alias hk)]
  · intro hr
    unfold getConstant
    cases hg : getAlias m.ad n with
    | ok r => exact absurd ⟨r, (get_alias_small_table _ hlen n r).1 hg⟩ hr
    | error e => rw [getAlias_error hg]; rfl

/-- Conversion of the value of a constant. -/
theorem const_toUnits {R : Registry} (hF : R.Faithful) (c : Const) (u2 : String) :
    (∀ w, (c.da.toUnits R u2 >>= fun a => .ok (a.arr.get [])) = .ok w → SamePhysical R u2 w c.units c.value) ∧
    ((∃ w, (c.da.toUnits R u2 >>= fun a => .ok (a.arr.get [])) = .ok w) ↔
      ∃ a b, R.parse c.units = some a ∧ R.parse u2 = some b ∧ a.dim = b.dim) := by
  have hunits : c.da.attrs.get? "units" = some c.units := by
    unfold Const.da
    rw [Dict.get?_cons, if_pos rfl]
  constructor
  · intro w h
    obtain ⟨q, hq, h⟩ := Exc.bind_ok_iff.1 h
    injection h with h
    subst h
    obtain ⟨own, h1, -, -, h4, -⟩ := toUnits_ok hF hq
    rw [hunits] at h1
    injection h1 with h1
    subst h1
    exact h4 []
  · constructor
    · rintro ⟨w, h⟩
      obtain ⟨q, hq, h⟩ := Exc.bind_ok_iff.1 h
      obtain ⟨own, h1, -, -, h4, -⟩ := toUnits_ok hF hq
      rw [hunits] at h1
      injection h1 with h1
      subst h1
      obtain ⟨a, b, ha, hb, hd, -⟩ := h4 []
      exact ⟨b, a, hb, ha, hd.symm⟩
    · rintro ⟨a, b, ha, hb, hd⟩
      obtain ⟨q, hq⟩ := toUnits_isOk (v := c.da) hunits ha hb hd
      exact ⟨q.arr.get [], by rw [hq]; rfl⟩

/-- **C45.**  After a `set_constant(n, v, u)` that does not raise, in any history: for
every name `m` resolving to the same constant as `n`, `get_constant(m, u2)` is the same
physical value as `v` in `u`, and is available in exactly the units compatible with
`u`; for every other name it gives (or raises) what it did before. -/
theorem set_then_get (R : Registry) (hF : R.Faithful) (ops : List ConstOp) (n : String) (v : Rat) (u : String)
    (hset : (setConstant R (afterHistory R ops) n v u).2 = .ok ()) :
    ∃ r, Resolves (afterHistory R ops).ad n r ∧
      (∀ m, Resolves (afterHistory R ops).ad m r → ∀ u2,
        (∀ w, getConstant R (afterHistory R (ops ++ [.set n v u])) m u2 = .ok w → SamePhysical R u2 w u v) ∧
        ((∃ w, getConstant R (afterHistory R (ops ++ [.set n v u])) m u2 = .ok w) ↔
          ∃ a b, R.parse u = some a ∧ R.parse u2 = some b ∧ a.dim = b.dim)) ∧
      (∀ m, ¬ Resolves (afterHistory R ops).ad m r → ∀ u2,
        getConstant R (afterHistory R (ops ++ [.set n v u])) m u2 = getConstant R (afterHistory R ops) m u2) := by
  obtain ⟨x, hx, -⟩ := history_inv R ops
  obtain ⟨y, hy, -⟩ := history_inv R (ops ++ [.set n v u])
  obtain ⟨-, -, h3⟩ := setConstant_spec R (afterHistory R ops) n v u
  obtain ⟨r, hg, he⟩ := h3 hset
  have hnew : afterHistory R (ops ++ [.set n v u]) = (setConstant R (afterHistory R ops) n v u).1 := by
    unfold afterHistory
    rw [List.foldl_append]
    rfl
  rw [← hnew] at he
  have had : (afterHistory R (ops ++ [.set n v u])).ad = (afterHistory R ops).ad := by rw [he]; rfl
  have hcd : (afterHistory R (ops ++ [.set n v u])).cd = (afterHistory R ops).cd.set r ⟨v, u⟩ := by
    rw [he]
    unfold CMem.cd
    exact getD_set_self hx.constants.2 _ _
  have hlen : (afterHistory R ops).ad.length ≤ 100 := by rw [hx.table, aliasTable_length]; omega
  refine ⟨r, (get_alias_small_table _ hlen n r).1 hg, ?_, ?_⟩
  · intro m hm u2
    have hget := (getConstant_eq R hy m u2).1 r (by rw [had]; exact hm)
    rw [hcd, Dict.get_eq_ok.2 (Dict.get?_set_self _ _ _), Exc.ok_bind] at hget
    rw [hget]
    exact const_toUnits hF ⟨v, u⟩ u2
  · intro m hm u2
    by_cases hr : ∃ r', Resolves (afterHistory R ops).ad m r'
    · obtain ⟨r', hr'⟩ := hr
      have hne : r ≠ r' := by
        rintro rfl
        exact hm hr'
      rw [(getConstant_eq R hy m u2).1 r' (by rw [had]; exact hr'), (getConstant_eq R hx m u2).1 r' hr', hcd]
      congr 1
      unfold Dict.get
      rw [Dict.get?_set_ne _ _ hne]
    · rw [(getConstant_eq R hy m u2).2 (by rw [had]; exact hr), (getConstant_eq R hx m u2).2 hr]

/-- **C45.**  `set_constant` raises, and then changes nothing, iff the units are unknown
(ValueError) or the name does not resolve (RuntimeError). -/
theorem set_constant_raises (R : Registry) (ops : List ConstOp) (n : String) (v : Rat) (u : String) :
    ((setConstant R (afterHistory R ops) n v u).2 = .ok () ↔
      (R.parse u).isSome ∧ ∃ r, Resolves (afterHistory R ops).ad n r) ∧
    (∀ e, (setConstant R (afterHistory R ops) n v u).2 = .error e →
      afterHistory R (ops ++ [.set n v u]) = afterHistory R ops) := by
  obtain ⟨x, hx, -⟩ := history_inv R ops
  have hlen : (afterHistory R ops).ad.length ≤ 100 := by rw [hx.table, aliasTable_length]; omega
  obtain ⟨h1, h2, -⟩ := setConstant_spec R (afterHistory R ops) n v u
  refine ⟨?_, fun e he => ?_⟩
  · rw [h1]
    unfold Registry.isValidUnit
    constructor
    · rintro ⟨a, r, hr⟩
      exact ⟨a, r, (get_alias_small_table _ hlen n r).1 hr⟩
    · rintro ⟨a, r, hr⟩
      exact ⟨a, r, (get_alias_small_table _ hlen n r).2 hr⟩
  · unfold afterHistory
    rw [List.foldl_append]
    exact h2 e he

/-- **C46.**  After any history, `reset_constants` makes every `get_constant` and
`get_constants_string` behave as at import (the default dictionaries were never
changed, although `constants` is filled from them). -/
theorem reset_restores (R : Registry) (ops : List ConstOp) :
    (∀ n u, getConstant R (afterHistory R (ops ++ [.reset])) n u = getConstant R importConstants n u) ∧
    (∀ fmt, constantsString fmt (afterHistory R (ops ++ [.reset])) = constantsString fmt importConstants) ∧
    ∀ n v u, ((setConstant R (afterHistory R (ops ++ [.reset])) n v u).2) = (setConstant R importConstants n v u).2 := by
  obtain ⟨x, hx, -⟩ := history_inv R ops
  have hnew : afterHistory R (ops ++ [.reset]) = resetConstants (afterHistory R ops) := by
    unfold afterHistory
    rw [List.foldl_append]
    rfl
  obtain ⟨hi, hcd⟩ := reset_inv hx.defaults hx.defaultAl (by have := hx.constants; omega)
    (by have := hx.constantAliases; omega)
  have hcd' : (resetConstants (afterHistory R ops)).cd = importConstants.cd := hcd
  have had : (resetConstants (afterHistory R ops)).ad = importConstants.ad :=
    hi.table.trans import_inv.table.symm
  rw [hnew]
  refine ⟨fun n u => ?_, fun fmt => ?_, fun n v u => ?_⟩
  · unfold getConstant
    rw [hcd', had]
  · unfold constantsString
    rw [hcd', had]
  · unfold setConstant
    rw [hcd', had]
    split
    · generalize (getAlias importConstants.ad n >>= fun n => constSet importConstants.cd importConstants.ad n ⟨v, u⟩) = z
      cases z <;> rfl
    · rfl

/-! ## C48 -/

theorem mapM_ok_of {α β : Type} {f : α → Except Err β} {l : List α} (h : ∀ x ∈ l, ∃ v, f x = .ok v) :
    ∃ r, l.mapM f = .ok r := by
  cases hm : l.mapM f with
  | ok r => exact ⟨r, rfl⟩
  | error e =>
    obtain ⟨x, hx, he⟩ := mapM_error hm
    obtain ⟨v, hv⟩ := h x hx
    rw [hv] at he
    cases he

theorem join_contains {l : String} {lines : List String} (h : l ∈ lines) : ContainsText (String.join lines) l := by
  have gen : ∀ (lines : List String) (acc : String),
      lines.foldl (· ++ ·) acc = acc ++ String.join lines := by
    intro lines
    induction lines with
    | nil => intro acc; simp [String.join]
    | cons a lines ih =>
      intro acc
      unfold String.join
      rw [List.foldl_cons, List.foldl_cons, ih, ih, String.append_assoc]
      simp
  obtain ⟨a, b, rfl⟩ := List.append_of_mem h
  refine ⟨String.join a, String.join b, ?_⟩
  unfold String.join
  rw [List.foldl_append, List.foldl_cons]
  exact gen b _

theorem ContainsText.append_left {s t : String} (h : ContainsText s t) (a : String) : ContainsText (a ++ s) t := by
  obtain ⟨p, q, rfl⟩ := h
  exact ⟨a ++ p, q, by simp only [String.append_assoc]⟩

theorem ContainsText.append_right {s t : String} (h : ContainsText s t) (a : String) : ContainsText (s ++ a) t := by
  obtain ⟨p, q, rfl⟩ := h
  exact ⟨p, q ++ a, by simp only [String.append_assoc]⟩

theorem ContainsText.trans {s t u : String} (h : ContainsText s t) (h' : ContainsText t u) : ContainsText s u := by
  obtain ⟨p, q, rfl⟩ := h
  exact (h'.append_left p).append_right q

theorem ContainsText.prefix (s t : String) : ContainsText (s ++ t) s := ⟨"", t, by simp⟩

theorem constItem_resolves {d : Dict Const} {al : Dict String} (hlen : al.length ≤ 100) (n : String) (c : Const) :
    constItem d al n = .ok c ↔ ∃ r, Resolves al n r ∧ d.get? r = some c := by
  unfold constItem
  by_cases hn : n ∈ Dict.keys al
  · rw [if_pos hn]
    constructor
    · intro h
      obtain ⟨r, hr, h⟩ := Exc.bind_ok_iff.1 h
      exact ⟨r, (get_alias_small_table al hlen n r).1 hr, Dict.get_eq_ok.1 h⟩
    · rintro ⟨r, hr, h⟩
      rw [(get_alias_small_table al hlen n r).2 hr, Exc.ok_bind]
      exact Dict.get_eq_ok.2 h
  · rw [if_neg hn]
    constructor
    · intro h
      exact ⟨n, ⟨0, .here hn⟩, Dict.get_eq_ok.1 h⟩
    · rintro ⟨r, ⟨k, hr⟩, h⟩
      have := (resolvesIn_det hr (.here hn)).2
      subst this
      exact Dict.get_eq_ok.2 h

theorem constLine_contains {fmt : Rat → String} {d : Dict Const} {al : Dict String} {strip : String → String}
    {n line : String} {c : Const} (hc : constItem d al n = .ok c) (h : constLine fmt d al strip n = .ok line) :
    ContainsText line ("\t" ++ n ++ ": " ++ fmt c.value ++ " ") := by
  unfold constLine at h
  rw [hc, Exc.ok_bind] at h
  injection h with h
  subst h
  exact (ContainsText.prefix _ _).append_right _

/-- **C48.**  Whenever `get_constants_string` does not raise, after any history, its
text has the line of every name, constant or alias, that resolves to a defined
constant, with that constant's value. -/
theorem constants_string_partial (R : Registry) (ops : List ConstOp) (fmt : Rat → String) (s : String)
    (h : constantsString fmt (afterHistory R ops) = .ok s) (n r : String) (c : Const)
    (hn : Resolves (afterHistory R ops).ad n r) (hc : (afterHistory R ops).cd.get? r = some c) :
    ContainsText s ("\t" ++ n ++ ": " ++ fmt c.value ++ " ") := by
  obtain ⟨x, hx, -⟩ := history_inv R ops
  have hlen : (afterHistory R ops).ad.length ≤ 100 := by rw [hx.table, aliasTable_length]; omega
  have hitem := (constItem_resolves hlen n c).2 ⟨r, hn, hc⟩
  unfold constantsString at h
  obtain ⟨texts, ht, h⟩ := Exc.bind_ok_iff.1 h
  dsimp only at h
  by_cases hp : n ∈ constantCategories.flatMap (·.2)
  · -- printed in a category
    have hj : ContainsText (String.join texts) ("\t" ++ n ++ ": " ++ fmt c.value ++ " ") := by
      obtain ⟨cat, hcat, hnc⟩ := List.mem_flatMap.1 hp
      obtain ⟨text, htm, htext⟩ := mapM_ok_mem_left ht hcat
      refine (join_contains htm).trans ?_
      unfold categoryText at htext
      obtain ⟨lines, hl, htext⟩ := Exc.bind_ok_iff.1 htext
      injection htext with htext
      subst htext
      obtain ⟨line, hlm, hline⟩ := mapM_ok_mem_left hl hnc
      exact (((join_contains hlm).trans (constLine_contains hitem hline)).append_left _).append_right _
    split at h
    · injection h with h
      subst h
      exact hj
    · obtain ⟨lines, hl, h⟩ := Exc.bind_ok_iff.1 h
      injection h with h
      subst h
      exact ((hj.append_right _).append_right _).append_right _
  · -- a user-defined name
    have hrest : n ∈ (Dict.keys (proxyDict (afterHistory R ops).cd (afterHistory R ops).ad)).filter
        (· ∉ constantCategories.flatMap (·.2)) := by
      refine List.mem_filter.2 ⟨?_, by simpa using hp⟩
      refine Dict.mem_keys_of_get? (v := c) ((proxy_lists _ _ ?_ ?_ n c).2 ⟨r, hn, hc⟩)
      · rw [hx.table]; exact aliasTable_nodup x
      · rw [hx.table, aliasTable_keys]; exact hx.disjoint
    split at h
    · rename_i he
      rw [he] at hrest
      cases hrest
    · obtain ⟨lines, hl, h⟩ := Exc.bind_ok_iff.1 h
      injection h with h
      subst h
      obtain ⟨line, hlm, hline⟩ := mapM_ok_mem_left hl hrest
      exact (((join_contains hlm).trans (constLine_contains hitem hline)).append_left _).append_right _

/-- **C48.**  It does not raise iff every name of the categories resolves to a defined
constant. -/
theorem constants_string_succeeds (R : Registry) (ops : List ConstOp) (fmt : Rat → String) :
    (∃ s, constantsString fmt (afterHistory R ops) = .ok s) ↔
      ∀ cat ∈ constantCategories, ∀ n ∈ cat.2, ∃ r c, Resolves (afterHistory R ops).ad n r ∧
        (afterHistory R ops).cd.get? r = some c := by
  obtain ⟨x, hx, -⟩ := history_inv R ops
  have hlen : (afterHistory R ops).ad.length ≤ 100 := by rw [hx.table, aliasTable_length]; omega
  constructor
  · rintro ⟨s, h⟩ cat hcat n hn
    unfold constantsString at h
    obtain ⟨texts, ht, -⟩ := Exc.bind_ok_iff.1 h
    obtain ⟨text, -, htext⟩ := mapM_ok_mem_left ht hcat
    unfold categoryText at htext
    obtain ⟨lines, hl, -⟩ := Exc.bind_ok_iff.1 htext
    obtain ⟨line, -, hline⟩ := mapM_ok_mem_left hl hn
    unfold constLine at hline
    obtain ⟨c, hc, -⟩ := Exc.bind_ok_iff.1 hline
    obtain ⟨r, hr⟩ := (constItem_resolves hlen n c).1 hc
    exact ⟨r, c, hr⟩
  · intro h
    have hline : ∀ strip n, (∃ r c, Resolves (afterHistory R ops).ad n r ∧ (afterHistory R ops).cd.get? r = some c) →
        ∃ l, constLine fmt (afterHistory R ops).cd (afterHistory R ops).ad strip n = .ok l := by
      rintro strip n ⟨r, c, hr⟩
      unfold constLine
      rw [(constItem_resolves hlen n c).2 ⟨r, hr⟩]
      exact ⟨_, rfl⟩
    unfold constantsString
    obtain ⟨texts, ht⟩ := mapM_ok_of (l := constantCategories)
      (f := categoryText fmt (afterHistory R ops).cd (afterHistory R ops).ad) fun cat hcat => by
        unfold categoryText
        obtain ⟨lines, hl⟩ := mapM_ok_of fun n hn => hline (fun u => u.replace "dimensionless" "") n (h cat hcat n hn)
        rw [hl]
        exact ⟨_, rfl⟩
    rw [ht, Exc.ok_bind]
    dsimp only
    split
    · exact ⟨_, rfl⟩
    · obtain ⟨lines, hl⟩ := mapM_ok_of
        (l := (Dict.keys (proxyDict (afterHistory R ops).cd (afterHistory R ops).ad)).filter
          (· ∉ constantCategories.flatMap (·.2)))
        fun n hn => hline id n (by
          obtain ⟨c, hc⟩ := Dict.get?_of_mem_keys (List.mem_filter.1 hn).1
          obtain ⟨r, hr⟩ := (proxy_lists _ _ (by rw [hx.table]; exact aliasTable_nodup x)
            (by rw [hx.table, aliasTable_keys]; exact hx.disjoint) n c).1 hc
          exact ⟨r, c, hr⟩)
      rw [hl]
      exact ⟨_, rfl⟩

/-- **C48.**  It never raises as long as the condensible is water. -/
theorem constants_string_water (R : Registry) (ops : List ConstOp) (fmt : Rat → String)
    (h : ∀ x, .condensible x ∈ ops → x = "water") :
    ∃ s, constantsString fmt (afterHistory R ops) = .ok s := by
  rw [constants_string_succeeds]
  obtain ⟨x, hx, hx'⟩ := history_inv R ops
  have hw : x = "water" := by
    rcases hx' with h' | h'
    · exact h'
    · exact h x h'
  subst hw
  have hlen : (aliasTable "water").length ≤ 100 := by rw [aliasTable_length]; omega
  have key : (constantCategories.all fun cat => cat.2.all fun n =>
      match getAlias (aliasTable "water") n with
      | .ok r => decide (r ∈ Dict.keys defaultConstants)
      | .error _ => false) = true := by decide +kernel
  intro cat hcat n hn
  have k := List.all_eq_true.1 (List.all_eq_true.1 key cat hcat) n hn
  cases hg : getAlias (aliasTable "water") n with
  | error e => rw [hg] at k; cases k
  | ok r =>
    rw [hg] at k
    obtain ⟨c, hc⟩ := Dict.get?_of_mem_keys (hx.defined r (of_decide_eq_true k))
    rw [hx.table]
    exact ⟨r, c, (get_alias_small_table _ hlen n r).1 hg, hc⟩

/-- **C48.**  After a history without `set_condensible_name('phase')` the only exception
is KeyError. -/
theorem constants_string_error (R : Registry) (ops : List ConstOp) (fmt : Rat → String) (e : Err)
    (h : .condensible "phase" ∉ ops) (he : constantsString fmt (afterHistory R ops) = .error e) : e = .keyError := by
  have hline : ∀ strip n e, constLine fmt (afterHistory R ops).cd (afterHistory R ops).ad strip n = .error e →
      e = .keyError := by
    intro strip n e he
    unfold constLine at he
    rcases Exc.bind_error_iff.1 he with he | ⟨c, -, he⟩
    · unfold constItem at he
      split at he
      · rcases Exc.bind_error_iff.1 he with he | ⟨r, -, he⟩
        · obtain ⟨r, hr⟩ := (no_circular_aliases R ops h).2 n
          rw [hr] at he
          cases he
        · exact (Dict.get_eq_error he).1
      · exact (Dict.get_eq_error he).1
    · cases he
  unfold constantsString at he
  rcases Exc.bind_error_iff.1 he with he | ⟨texts, -, he⟩
  · obtain ⟨cat, -, he⟩ := mapM_error he
    unfold categoryText at he
    rcases Exc.bind_error_iff.1 he with he | ⟨lines, -, he⟩
    · obtain ⟨n, -, he⟩ := mapM_error he
      exact hline _ _ _ he
    · cases he
  · dsimp only at he
    split at he
    · cases he
    · rcases Exc.bind_error_iff.1 he with he | ⟨lines, -, he⟩
      · obtain ⟨n, -, he⟩ := mapM_error he
        exact hline _ _ _ he
      · cases he

/-- **C48 does not hold in general**: right after `set_condensible_name('methane')` it
raises, because the names of the categories are aliases of constants that are not
defined. -/
theorem constants_string_raises (R : Registry) (fmt : Rat → String) :
    constantsString fmt (afterHistory R [.condensible "methane"]) = .error .keyError := by
  have hnone : (setCondensible importConstants "methane").cd.get? "density_of_liquid_methane" = none := by
    decide +kernel
  cases hs : constantsString fmt (afterHistory R [.condensible "methane"]) with
  | ok s =>
    exfalso
    obtain ⟨r, c, hr, hc⟩ := (constants_string_succeeds R _ fmt).1 ⟨s, hs⟩ (constantCategories.getD 2 ("", []))
      (by decide +kernel) "density_of_liquid_phase" (by decide +kernel)
    have h' : Resolves (setCondensible importConstants "methane").ad "density_of_liquid_phase"
        "density_of_liquid_methane" := ⟨1, .step (by decide +kernel) (.here (by decide +kernel))⟩
    obtain ⟨k, hk⟩ := hr
    obtain ⟨k', hk'⟩ := h'
    have := (resolvesIn_det hk hk').2
    subst this
    exact absurd (hc.symm.trans hnone) (by simp)
  | error e => rw [constants_string_error R _ fmt e (by simp) hs]

/-! ## Concrete cases -/

namespace Demo

/-- For the concrete cases. -/
theorem _root_.Verif.Exc.eq_of_test {β : Type} [DecidableEq β] {x : Except Err β} {v : β}
    (h : (match x with | .ok w => decide (w = v) | .error _ => false) = true) : x = .ok v := by
  cases x with
  | ok w => rw [of_decide_eq_true h]
  | error e => cases h

/-- A history: the condensible becomes methane, two of its constants are set through
aliases, and a new constant is defined. -/
def constHistory : List ConstOp :=
  [.condensible "methane", .set "density_of_liquid_phase" 423 "m", .set "latent_heat_of_condensation" 511 "m",
   .set "mountain_height" 2 "km"]

/-- The table of 2 aliases where `a → b → c`. -/
def shortAliases : Dict String := [("a", "b"), ("b", "c")]

-- C45: the hypothesis of `set_then_get` holds for a name that is an alias of an alias …
example : (setConstant reg (afterHistory reg [.condensible "methane"]) "latent_heat_of_condensation" 3 "km").2 = .ok () := by
  have h : (match (setConstant reg (afterHistory reg [.condensible "methane"]) "latent_heat_of_condensation" 3 "km").2 with
    | .ok _ => true | .error _ => false) = true := by decide +kernel
  revert h
  cases (setConstant reg (afterHistory reg [.condensible "methane"]) "latent_heat_of_condensation" 3 "km").2 with
  | ok u => intro _; rfl
  | error e => intro h; cases h

-- … and the constant is then available through the other alias and its own name, in other units
example :
    getConstant reg (afterHistory reg [.condensible "methane", .set "latent_heat_of_condensation" 3 "km"])
      "latent_heat_of_vaporization" "m" = .ok 3000 ∧
    getConstant reg (afterHistory reg [.condensible "methane", .set "latent_heat_of_condensation" 3 "km"])
      "latent_heat_of_vaporization_of_methane" "m" = .ok 3000 ∧
    getConstant reg (afterHistory reg [.condensible "methane", .set "latent_heat_of_condensation" 3 "km"])
      "planetary_radius" "km" = .ok 6371 := by
  refine ⟨?_, ?_, ?_⟩ <;> (apply Exc.eq_of_test; decide +kernel)

-- an invalid unit changes nothing
example : (setConstant reg importConstants "planetary_radius" 1 "furlong").2 = .error .valueError := by
  apply Exc.failsWith_error
  decide +kernel

-- C46: the history changes the radius, the reset restores it
example :
    getConstant reg (afterHistory reg [.set "planetary_radius" 1 "km"]) "planetary_radius" "m" = .ok 1000 ∧
    getConstant reg (afterHistory reg ([.set "planetary_radius" 1 "km"] ++ [.reset])) "planetary_radius" "m" = .ok 6371000 := by
  refine ⟨?_, ?_⟩ <;> (apply Exc.eq_of_test; decide +kernel)

-- C47: two steps; a circle; the limit
example : getAlias shortAliases "a" = .ok "c" := rfl
example : getAlias [("a", "b"), ("b", "a")] "a" = .error .runtimeError := by
  apply Exc.failsWith_error
  decide +kernel
example : .condensible "phase" ∉ constHistory := by simp [constHistory]
example : getAlias (afterHistory reg constHistory).ad "heat_capacity_of_snow" = .ok "heat_capacity_of_solid_methane_as_snow" := by
  apply Exc.eq_of_test
  decide +kernel

-- C48: a user-defined constant, listed under its name and an alias of a set constant
example : Resolves (afterHistory reg constHistory).ad "latent_heat_of_condensation" "latent_heat_of_vaporization_of_methane" :=
  ⟨2, .step (n' := "latent_heat_of_vaporization") (by decide +kernel)
    (.step (n' := "latent_heat_of_vaporization_of_methane") (by decide +kernel) (.here (by decide +kernel)))⟩
example : (afterHistory reg constHistory).cd.get? "latent_heat_of_vaporization_of_methane" = some ⟨511, "m"⟩ := by
  decide +kernel
example : ∃ s, constantsString (fun _ => "1") (afterHistory reg [.set "mountain_height" 2 "km"]) = .ok s :=
  constants_string_water reg _ _ (by simp)

end Demo

end Verif

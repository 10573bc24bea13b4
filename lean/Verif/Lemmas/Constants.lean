import Verif.Spec.Constants
import Verif.Lemmas.Lists
import Mathlib.Data.List.Nodup
import Mathlib.Data.List.Perm.Subperm
/-!
# Lemmas about constants
-/

namespace Verif

theorem resolvesIn_det {al : Dict String} {k j : Nat} {n r s : String} (h : ResolvesIn al k n r)
    (h' : ResolvesIn al j n s) : k = j ∧ r = s := by
  induction h generalizing j with
  | here hn =>
    cases h' with
    | here _ => exact ⟨rfl, rfl⟩
    | step hg _ => exact absurd (Dict.mem_keys_of_get? hg) hn
  | step hg _ ih =>
    cases h' with
    | here hn => exact absurd (Dict.mem_keys_of_get? hg) hn
    | step hg' h' =>
      rw [hg] at hg'
      injection hg' with hg'
      subst hg'
      obtain ⟨rfl, rfl⟩ := ih h'
      exact ⟨rfl, rfl⟩

theorem resolvesIn_not_alias {al : Dict String} {k : Nat} {n r : String} (h : ResolvesIn al k n r) :
    r ∉ Dict.keys al := by
  induction h with
  | here hn => exact hn
  | step _ _ ih => exact ih

/-- The names visited have decreasing distance to the end, so they are all different. -/
theorem resolvesIn_chain {al : Dict String} {k : Nat} {n r : String} (h : ResolvesIn al k n r) :
    ∃ c : List String, c.length = k ∧ c.Nodup ∧ (∀ x ∈ c, x ∈ Dict.keys al) ∧
      ∀ x ∈ c, ∃ j, j ≤ k ∧ ResolvesIn al j x r := by
  induction h with
  | here _ => exact ⟨[], rfl, List.nodup_nil, fun x h => (by cases h), fun x h => (by cases h)⟩
  | @step k n n' r hg h ih =>
    obtain ⟨c, h1, h2, h3, h4⟩ := ih
    refine ⟨n :: c, by simp [h1], ?_, ?_, ?_⟩
    · rw [List.nodup_cons]
      refine ⟨fun hn => ?_, h2⟩
      obtain ⟨j, hj, hr⟩ := h4 n hn
      have := (resolvesIn_det hr (.step hg h)).1
      omega
    · intro x hx
      rcases List.mem_cons.1 hx with rfl | hx
      · exact Dict.mem_keys_of_get? hg
      · exact h3 x hx
    · intro x hx
      rcases List.mem_cons.1 hx with rfl | hx
      · exact ⟨k + 1, Nat.le_refl _, .step hg h⟩
      · obtain ⟨j, hj, hr⟩ := h4 x hx
        exact ⟨j, by omega, hr⟩

theorem resolvesIn_le {al : Dict String} {k : Nat} {n r : String} (h : ResolvesIn al k n r) : k ≤ al.length := by
  obtain ⟨c, h1, h2, h3, _⟩ := resolvesIn_chain h
  have := (List.subperm_of_subset h2 h3).length_le
  simp only [Dict.keys, List.length_map] at this
  omega

theorem aliasLoop_spec (al : Dict String) (n : Nat) (name : String) :
    (∀ k r, k ≤ n → ResolvesIn al k name r → aliasLoop al n name = r) ∧
    (aliasLoop al n name ∉ Dict.keys al → ∃ k, k ≤ n ∧ ResolvesIn al k name (aliasLoop al n name)) := by
  induction n generalizing name with
  | zero =>
    refine ⟨fun k r hk h => ?_, fun h => ⟨0, Nat.le_refl _, .here h⟩⟩
    have : k = 0 := by omega
    subst this
    cases h
    rfl
  | succ n ih =>
    unfold aliasLoop
    cases hg : al.get? name with
    | none =>
      have hn : name ∉ Dict.keys al := (Dict.get?_eq_none_iff _ _).1 hg
      refine ⟨fun k r _ h => ?_, fun _ => ⟨0, Nat.zero_le _, .here hn⟩⟩
      exact (resolvesIn_det h (.here hn)).2.symm
    | some next =>
      obtain ⟨i1, i2⟩ := ih next
      refine ⟨fun k r hk h => ?_, fun h => ?_⟩
      · cases h with
        | here hn => exact absurd (Dict.mem_keys_of_get? hg) hn
        | step hg' h =>
          rw [hg] at hg'
          injection hg' with hg'
          subst hg'
          exact i1 _ r (by omega) h
      · obtain ⟨k, hk, hr⟩ := i2 h
        exact ⟨k + 1, by omega, .step hg hr⟩

theorem getAlias_ok_iff (al : Dict String) (n r : String) :
    getAlias al n = .ok r ↔ ∃ k, k ≤ 100 ∧ ResolvesIn al k n r := by
  obtain ⟨h1, h2⟩ := aliasLoop_spec al 100 n
  unfold getAlias
  dsimp only
  constructor
  · intro h
    split at h
    · cases h
    · rename_i hn
      injection h with h
      obtain ⟨k, hk, hr⟩ := h2 hn
      exact ⟨k, hk, h ▸ hr⟩
  · rintro ⟨k, hk, hr⟩
    rw [h1 k r hk hr, if_neg (resolvesIn_not_alias hr)]

theorem getAlias_error {al : Dict String} {n : String} {e : Err} (h : getAlias al n = .error e) :
    e = .runtimeError := by
  unfold getAlias at h
  dsimp only at h
  split at h
  · injection h with h
    exact h.symm
  · cases h

/-! ## Listing aliases -/

theorem proxyNew_get? (al : Dict String) (d : Dict Const) (hal : (Dict.keys al).Nodup) (q : String) :
    (proxyNew al d).get? q = if q ∈ Dict.keys d then none else
      match al.get? q with
      | some o => d.get? o
      | none => none := by
  have gen : ∀ (al : Dict String), (Dict.keys al).Nodup → ∀ (new : Dict Const), (∀ k ∈ Dict.keys al, k ∉ Dict.keys new) →
      Dict.get? (al.foldl (fun new kv =>
        match d.get? kv.2 with
        | some c => if kv.1 ∈ Dict.keys d then new else new.set kv.1 c
        | none => new) new) q = (match (if q ∈ Dict.keys d then none else
          match al.get? q with
          | some o => d.get? o
          | none => none) with
        | some c => some c
        | none => new.get? q) := by
    intro al
    induction al with
    | nil =>
      intro _ new _
      simp [Dict.get?]
    | cons kv al ih =>
      obtain ⟨k, o⟩ := kv
      intro hal new hnew
      simp only [Dict.keys, List.map_cons, List.nodup_cons] at hal
      rw [List.foldl_cons]
      have hk : k ∉ Dict.keys new := hnew k (by simp [Dict.keys])
      have hrest : ∀ k' ∈ Dict.keys al, k' ∉ Dict.keys new := fun k' hk' => hnew k' (by
        simp only [Dict.keys, List.map_cons]
        exact List.mem_cons_of_mem _ hk')
      rw [Dict.get?_cons]
      by_cases hkq : k = q
      · subst hkq
        have hn : Dict.get? al k = none := (Dict.get?_eq_none_iff _ _).2 hal.1
        rw [if_pos rfl]
        dsimp only
        cases ho : d.get? o with
        | none =>
          dsimp only
          rw [ih hal.2 new hrest, hn]
        | some c =>
          dsimp only
          by_cases hkd : k ∈ Dict.keys d
          · rw [if_pos hkd, if_pos hkd, ih hal.2 new hrest, if_pos hkd]
          · rw [if_neg hkd, if_neg hkd, ih hal.2, if_neg hkd, hn]
            · dsimp only
              rw [Dict.get?_set_self]
            · intro k' hk' hc
              rcases (Dict.mem_keys_set _ _ _ _).1 hc with rfl | hc
              · exact hal.1 hk'
              · exact hrest k' hk' hc
      · rw [if_neg hkq]
        dsimp only
        cases ho : d.get? o with
        | none =>
          dsimp only
          exact ih hal.2 new hrest
        | some c =>
          dsimp only
          by_cases hkd : k ∈ Dict.keys d
          · rw [if_pos hkd]
            exact ih hal.2 new hrest
          · rw [if_neg hkd, ih hal.2, Dict.get?_set_ne _ _ hkq]
            intro k' hk' hc
            rcases (Dict.mem_keys_set _ _ _ _).1 hc with rfl | hc
            · exact hal.1 hk'
            · exact hrest k' hk' hc
  refine (gen al hal [] (fun _ _ h => (by cases h))).trans ?_
  by_cases hq : q ∈ Dict.keys d
  · rw [if_pos hq]
    rfl
  · rw [if_neg hq]
    cases al.get? q with
    | none => rfl
    | some o =>
      dsimp only
      cases d.get? o <;> rfl

theorem proxyNew_nodup (al : Dict String) (d : Dict Const) : (Dict.keys (proxyNew al d)).Nodup := by
  have gen : ∀ (al : Dict String) (new : Dict Const), (Dict.keys new).Nodup →
      (Dict.keys (al.foldl (fun new kv =>
        match d.get? kv.2 with
        | some c => if kv.1 ∈ Dict.keys d then new else new.set kv.1 c
        | none => new) new)).Nodup := by
    intro al
    induction al with
    | nil => exact fun new h => h
    | cons kv al ih =>
      intro new h
      rw [List.foldl_cons]
      apply ih
      split
      · split
        · exact h
        · exact Dict.nodup_keys_set h _ _
      · exact h
  exact gen al [] List.nodup_nil

theorem filter_lt {α : Type} {p q : α → Bool} {l : List α} (h : ∀ x ∈ l, q x = true → p x = true) {a : α}
    (ha : a ∈ l) (hp : p a = true) (hq : q a = false) : (l.filter q).length < (l.filter p).length := by
  induction l with
  | nil => cases ha
  | cons b l ih =>
    have hle : (l.filter q).length ≤ (l.filter p).length := by
      rw [← List.countP_eq_length_filter, ← List.countP_eq_length_filter]
      exact List.countP_mono_left (fun x hx => h x (List.mem_cons_of_mem _ hx))
    rcases List.mem_cons.1 ha with rfl | ha
    · rw [List.filter_cons_of_pos hp, List.filter_cons_of_neg (by rw [hq]; simp)]
      simp only [List.length_cons]
      omega
    · have := ih (fun x hx => h x (List.mem_cons_of_mem _ hx)) ha
      by_cases hb : q b = true
      · rw [List.filter_cons_of_pos hb, List.filter_cons_of_pos (h b (by simp) hb)]
        simp only [List.length_cons]
        omega
      · rw [List.filter_cons_of_neg hb]
        by_cases hpb : p b = true
        · rw [List.filter_cons_of_pos hpb]
          simp only [List.length_cons]
          omega
        · rw [List.filter_cons_of_neg hpb]
          exact this

theorem proxyLoop_some (al : Dict String) (hal : (Dict.keys al).Nodup) (n : Nat) (d : Dict Const)
    (h : ((Dict.keys al).filter (fun k => k ∉ Dict.keys d)).length < n) : ∃ d', proxyLoop al n d = some d' := by
  induction n generalizing d with
  | zero => omega
  | succ n ih =>
    unfold proxyLoop
    dsimp only
    by_cases hn : proxyNew al d = []
    · exact ⟨d, if_pos hn⟩
    · rw [if_neg hn]
      apply ih
      -- some alias is new
      cases hnew : proxyNew al d with
      | nil => exact absurd hnew hn
      | cons kv rest =>
        have hk : kv.1 ∈ Dict.keys (proxyNew al d) := by rw [hnew]; simp [Dict.keys]
        obtain ⟨c, hc⟩ := Dict.get?_of_mem_keys hk
        rw [proxyNew_get? al d hal] at hc
        have hkd : kv.1 ∉ Dict.keys d := by
          intro hd
          rw [if_pos hd] at hc
          cases hc
        rw [if_neg hkd] at hc
        have hka : kv.1 ∈ Dict.keys al := by
          cases ho : al.get? kv.1 with
          | none => rw [ho] at hc; cases hc
          | some o => exact Dict.mem_keys_of_get? ho
        rw [hnew] at hk
        have : ((Dict.keys al).filter (fun k => k ∉ Dict.keys (d.update (kv :: rest)))).length <
            ((Dict.keys al).filter (fun k => k ∉ Dict.keys d)).length := by
          refine filter_lt ?_ hka (by simpa using hkd) ?_
          · intro x _ hx
            simp only [decide_eq_true_eq, Dict.mem_keys_update, not_or] at hx ⊢
            exact hx.1
          · simp only [decide_eq_false_iff_not, not_not, Dict.mem_keys_update]
            exact Or.inr hk
        omega

/-- What the loop lists. -/
theorem proxyLoop_get? {al : Dict String} (hal : (Dict.keys al).Nodup) {d : Dict Const}
    (n : Nat) {d0 d' : Dict Const}
    (hsound : ∀ q c, d0.get? q = some c → ∃ r, Resolves al q r ∧ d.get? r = some c)
    (hkeep : ∀ q c, d.get? q = some c → d0.get? q = some c)
    (h : proxyLoop al n d0 = some d') (q : String) (c : Const) :
    d'.get? q = some c ↔ ∃ r, Resolves al q r ∧ d.get? r = some c := by
  induction n generalizing d0 with
  | zero => cases h
  | succ n ih =>
    unfold proxyLoop at h
    dsimp only at h
    by_cases hn : proxyNew al d0 = []
    · rw [if_pos hn] at h
      injection h with h
      subst h
      refine ⟨hsound q c, ?_⟩
      rintro ⟨r, ⟨k, hk⟩, hc⟩
      clear ih
      induction hk with
      | here _ => exact hkeep _ _ hc
      | @step k x x' r hg hr ihk =>
        have hx' := ihk hc
        cases hx : d0.get? x with
        | none =>
          have hnew := proxyNew_get? al d0 hal x
          rw [hn, if_neg ((Dict.get?_eq_none_iff _ _).1 hx), hg] at hnew
          dsimp only at hnew
          rw [hx'] at hnew
          cases hnew
        | some c2 =>
          obtain ⟨r2, ⟨k2, hr2⟩, hc2⟩ := hsound x c2 hx
          obtain ⟨-, rfl⟩ := resolvesIn_det hr2 (.step hg hr)
          rw [hc] at hc2
          exact hc2.symm ▸ rfl
    · rw [if_neg hn] at h
      have hupd : ∀ q, (d0.update (proxyNew al d0)).get? q =
          match (proxyNew al d0).get? q with
          | some c => some c
          | none => d0.get? q := by
        intro q
        rw [Dict.get?_update d0 _ (proxyNew_nodup al d0) q]
        cases (proxyNew al d0).get? q <;> rfl
      refine ih ?_ ?_ h
      · intro q c hq
        rw [hupd] at hq
        cases hnew : (proxyNew al d0).get? q with
        | none => rw [hnew] at hq; exact hsound q c hq
        | some c' =>
          rw [hnew] at hq
          injection hq with hq
          subst hq
          rw [proxyNew_get? al d0 hal] at hnew
          split at hnew
          · cases hnew
          · cases ho : al.get? q with
            | none => rw [ho] at hnew; cases hnew
            | some o =>
              rw [ho] at hnew
              obtain ⟨r, ⟨k, hr⟩, hc⟩ := hsound o c' hnew
              exact ⟨r, ⟨k + 1, .step ho hr⟩, hc⟩
      · intro q c hq
        rw [hupd]
        cases hnew : (proxyNew al d0).get? q with
        | none => exact hkeep q c hq
        | some c' =>
          rw [proxyNew_get? al d0 hal, if_pos (Dict.mem_keys_of_get? (hkeep q c hq))] at hnew
          cases hnew

/-! ## The table of aliases -/

/-- The table with condensible `x`. -/
def aliasTable (x : String) : Dict String := defaultAliases ++ condensibleMap x

theorem set_at {α : Type} (d es : Dict α) (k : String) (v v' : α) (h : k ∉ Dict.keys d) :
    Dict.set (d ++ (k, v) :: es) k v' = d ++ (k, v') :: es := by
  induction d with
  | nil => simp [Dict.set]
  | cons kv d ih =>
    obtain ⟨k0, v0⟩ := kv
    simp only [Dict.keys, List.map_cons, List.mem_cons, not_or] at h
    rw [List.cons_append, Dict.set, if_neg (Ne.symm h.1), ih h.2]
    rfl

theorem update_replace {α : Type} (d e e' : Dict α) (hk : Dict.keys e = Dict.keys e')
    (hn : (Dict.keys (d ++ e)).Nodup) : Dict.update (d ++ e) e' = d ++ e' := by
  induction e generalizing d e' with
  | nil =>
    cases e' with
    | nil => rfl
    | cons kv e' => simp [Dict.keys] at hk
  | cons kv e ih =>
    obtain ⟨k, v⟩ := kv
    cases e' with
    | nil => simp [Dict.keys] at hk
    | cons kv' e' =>
      obtain ⟨k', v'⟩ := kv'
      simp only [Dict.keys, List.map_cons, List.cons.injEq] at hk
      obtain ⟨rfl, hk⟩ := hk
      have hkd : k ∉ Dict.keys d := by
        intro h
        simp only [Dict.keys, List.map_append, List.map_cons] at hn h
        exact (List.nodup_append.1 hn).2.2 k h k (by simp) rfl
      rw [Dict.update_cons, set_at d e k v v' hkd]
      have := ih (d ++ [(k, v')]) e' hk (by
        simp only [Dict.keys, List.map_append, List.map_cons, List.append_assoc,
          List.singleton_append] at hn ⊢
        exact hn)
      simp only [List.append_assoc, List.singleton_append] at this
      exact this

theorem aliasTable_import : Dict.update (Dict.update [] defaultAliases) (condensibleMap "water") =
    aliasTable "water" := by
  decide +kernel

theorem aliasTable_keys (x : String) : Dict.keys (aliasTable x) = Dict.keys (aliasTable "") := by
  rfl

theorem aliasTable_nodup (x : String) : (Dict.keys (aliasTable x)).Nodup := by
  rw [aliasTable_keys]
  decide +kernel

theorem aliasTable_length (x : String) : (aliasTable x).length = 24 := rfl

theorem aliasTable_update (w x : String) : Dict.update (aliasTable w) (condensibleMap x) = aliasTable x :=
  update_replace _ _ _ (by rw [condensibleMap, condensibleMap, Dict.keys_mapVal, Dict.keys_mapVal])
    (aliasTable_nodup w)

/-- The only way a target of a condensible entry can be an alias. -/
theorem condensible_target {p s x : String} (hps : (p, s) ∈ condensibleTable.map (·.2))
    (h : p ++ x ++ s ∈ Dict.keys (aliasTable "")) : x = "phase" := by
  have key : ((condensibleTable.map (·.2)).all fun ps => (Dict.keys (aliasTable "")).all fun k =>
      !(ps.1.toList.isPrefixOf k.toList && ps.2.toList.isSuffixOf k.toList &&
        decide (ps.1.toList.length + ps.2.toList.length ≤ k.toList.length)) ||
      decide ((k.toList.drop ps.1.toList.length).take (k.toList.length - ps.1.toList.length - ps.2.toList.length) =
        "phase".toList)) = true := by
    decide +kernel
  rw [List.all_eq_true] at key
  have k1 := key _ hps
  rw [List.all_eq_true] at k1
  have k2 := k1 _ h
  have hl : (p ++ x ++ s).toList = p.toList ++ (x.toList ++ s.toList) := by
    simp [String.toList_append]
  have hpre : p.toList.isPrefixOf (p ++ x ++ s).toList = true := by
    rw [hl, List.isPrefixOf_iff_prefix]
    exact List.prefix_append _ _
  have hsuf : s.toList.isSuffixOf (p ++ x ++ s).toList = true := by
    rw [hl, List.isSuffixOf_iff_suffix]
    exact ⟨p.toList ++ x.toList, by simp⟩
  have hlen : (p ++ x ++ s).toList.length = p.toList.length + (x.toList.length + s.toList.length) := by
    rw [hl]
    simp
  have hmid : ((p ++ x ++ s).toList.drop p.toList.length).take
      ((p ++ x ++ s).toList.length - p.toList.length - s.toList.length) = x.toList := by
    rw [hlen, hl, List.drop_left]
    have : p.toList.length + (x.toList.length + s.toList.length) - p.toList.length - s.toList.length =
        x.toList.length := by omega
    rw [this, List.take_left]
  dsimp only at k2
  rw [hpre, hsuf, hmid] at k2
  have hle : p.toList.length + s.toList.length ≤ (p ++ x ++ s).toList.length := by rw [hlen]; omega
  simp only [hle, decide_true, Bool.and_true, Bool.not_true, Bool.false_or, decide_eq_true_eq] at k2
  exact String.toList_inj.1 k2

end Verif

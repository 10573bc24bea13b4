import Verif.Props.StepperTendencies
/-!
# C15: aliases are transparent
-/

namespace Verif

/-! ## Stripping aliases -/

theorem keys_stripAlias (p : PropDict) : (stripAlias p).keys = p.keys := Dict.keys_mapVal _ _

theorem get?_stripAlias (p : PropDict) (k : String) :
    (stripAlias p).get? k = (p.get? k).map fun q => { q with aliasName := none } := Dict.get?_mapVal _ _ _

theorem matchLoop_strip (state : State) (props : PropDict) (w : List String) (l : Dict Nat) :
    matchLoop state (stripAlias props) w l = matchLoop state props w l := by
  induction props generalizing w l with
  | nil => rfl
  | cons kv props ih =>
    obtain ⟨n, p⟩ := kv
    show matchLoop state ((n, { p with aliasName := none }) :: stripAlias props) w l = _
    unfold matchLoop
    simp only [ih]
    rfl

theorem getWildcard_strip (state : State) (props : PropDict) :
    getWildcard state (stripAlias props) = getWildcard state props := by
  unfold getWildcard
  rw [matchLoop_strip]
  have : (stripAlias props).any (fun kv => hasStar kv.2) = props.any (fun kv => hasStar kv.2) := by
    unfold stripAlias Dict.mapVal
    rw [List.any_map]
    rfl
  rw [this]

theorem rawInputs_strip (R : Registry) (state : State) (w : List String) (l : Dict Nat)
    (props : PropDict) (hn : props.keys.Nodup) (ho : (props.map outName).Nodup)
    (out out' : Dict NDArray) :
    (∀ e, rawInputs R state w l (stripAlias props) out' = .error e →
      rawInputs R state w l props out = .error e) ∧
    (∀ r', rawInputs R state w l (stripAlias props) out' = .ok r' →
      ∃ r, rawInputs R state w l props out = .ok r ∧
        (∀ kv ∈ props, r.get? (outName kv) = r'.get? kv.1) ∧
        (∀ k, k ∉ props.map outName → r.get? k = out.get? k) ∧
        (∀ k, k ∉ props.keys → r'.get? k = out'.get? k)) := by
  induction props generalizing out out' with
  | nil =>
    refine ⟨fun e h => (by cases h), fun r' h => ?_⟩
    cases h
    exact ⟨out, rfl, by simp, by simp, by simp⟩
  | cons kv props ih =>
    obtain ⟨n, p⟩ := kv
    rw [Dict.keys_cons, List.nodup_cons] at hn
    rw [List.map_cons, List.nodup_cons] at ho
    have hrel : (∀ e, rawInput R state w l n { p with aliasName := none } = .error e →
          rawInput R state w l n p = .error e) ∧
        (∀ r, rawInput R state w l n { p with aliasName := none } = .ok r →
          r.1 = n ∧ rawInput R state w l n p = .ok (p.aliasName.getD n, r.2)) := by
      unfold rawInput
      have he : ensureDimsUnits { p with aliasName := none } = ensureDimsUnits p := rfl
      rw [he]
      cases ensureDimsUnits p with
      | error e => exact ⟨fun e' h => h, fun r h => by cases h⟩
      | ok du =>
        simp only [Exc.ok_bind]
        cases state.da n with
        | error e => exact ⟨fun e' h => h, fun r h => by cases h⟩
        | ok a =>
          simp only [Exc.ok_bind]
          generalize (if "*" ∈ du.1 then
            getArray R a du.2 (du.1.take (du.1.idxOf "*") ++ w ++ du.1.drop (du.1.idxOf "*" + 1)) l >>=
              fun arr => flattenWildcardDims arr (du.1.idxOf "*") (du.1.idxOf "*" + w.length)
            else getArray R a du.2 du.1 l) = x
          cases x with
          | error e => exact ⟨fun e' h => h, fun r h => by cases h⟩
          | ok arr =>
            refine ⟨fun e h => (by cases h), fun r h => ?_⟩
            cases h
            exact ⟨rfl, rfl⟩
    show (∀ e, rawInputs R state w l ((n, { p with aliasName := none }) :: stripAlias props) out' = .error e → _) ∧
      (∀ r', rawInputs R state w l ((n, { p with aliasName := none }) :: stripAlias props) out' = .ok r' → _)
    unfold rawInputs
    refine ⟨fun e h => ?_, fun r' h => ?_⟩
    · rcases Exc.bind_error_iff.1 h with h | ⟨r, hr, h⟩
      · rw [hrel.1 e h]; rfl
      · rw [(hrel.2 r hr).2]
        exact (ih hn.2 ho.2 _ _).1 e h
    · obtain ⟨r, hr, h⟩ := Exc.bind_ok_iff.1 h
      obtain ⟨e1, e2⟩ := hrel.2 r hr
      rw [e2]
      obtain ⟨q, q1, q2, q3, q4⟩ := (ih hn.2 ho.2 (out.set (p.aliasName.getD n) r.2) _).2 r' h
      refine ⟨q, q1, ?_, ?_, ?_⟩
      · intro kv hkv
        rcases List.mem_cons.1 hkv with rfl | hkv
        · rw [q3 _ ho.1, q4 _ hn.1, e1]
          show (Dict.set out (p.aliasName.getD n) r.2).get? (p.aliasName.getD n) = _
          rw [Dict.get?_set_self, Dict.get?_set_self]
        · exact q2 kv hkv
      · intro k hk
        simp only [List.map_cons, List.mem_cons, not_or] at hk
        rw [q3 k hk.2, Dict.get?_set_ne]
        exact fun e => hk.1 e.symm
      · intro k hk
        simp only [Dict.keys_cons, List.mem_cons, not_or] at hk
        rw [q4 k hk.2, e1, Dict.get?_set_ne]
        exact fun e => hk.1 e.symm

/-- **C15, inputs.**  The arrays a component with aliases receives are exactly
those it would receive without: under the alias in place of the name, for every
state (and the same exception if extraction fails). -/
theorem aliased_inputs_same (R : Registry) (state : State) (props : PropDict)
    (hn : props.keys.Nodup) (ho : (props.map outName).Nodup) :
    (∀ e, getNumpyArrays R state (stripAlias props) = .error e →
      getNumpyArrays R state props = .error e) ∧
    (∀ raw', getNumpyArrays R state (stripAlias props) = .ok raw' →
      ∃ raw, getNumpyArrays R state props = .ok raw ∧
        (∀ kv ∈ props, raw.get? (outName kv) = raw'.get? kv.1) ∧
        (∀ k, k ∈ raw.keys ↔ k ∈ props.map outName)) := by
  unfold getNumpyArrays
  rw [getWildcard_strip]
  cases getWildcard state props with
  | error e => exact ⟨fun e' h => h, fun r h => by cases h⟩
  | ok wl =>
    simp only [Exc.ok_bind]
    have := rawInputs_strip R state (wl.1.getD []) wl.2 props hn ho [] []
    refine ⟨this.1, fun r' h => ?_⟩
    obtain ⟨r, h1, h2, h3, h4⟩ := this.2 r' h
    refine ⟨r, h1, h2, ?_⟩
    intro k
    constructor
    · intro hk
      by_contra hc
      obtain ⟨v, hv⟩ := Dict.get?_of_mem_keys hk
      rw [h3 k hc] at hv; simp at hv
    · intro hk
      obtain ⟨kv, hkv, rfl⟩ := List.mem_map.1 hk
      exact (rawInputs_keys h1).1 kv hkv

/-! ## Returned arrays -/

theorem getAliasOrName_strip (n : String) (outP inP : PropDict) :
    getAliasOrName n (stripAlias outP) (stripAlias inP) = n := by
  unfold getAliasOrName
  rw [get?_stripAlias, get?_stripAlias]
  cases outP.get? n <;> cases inP.get? n <;> rfl

theorem getAliasOrName_eq {n : String} {outP inP : PropDict} (h : n ∈ outP.keys) :
    getAliasOrName n outP inP = returnName inP outP n := by
  obtain ⟨p, hp⟩ := Dict.get?_of_mem_keys h
  unfold getAliasOrName returnName
  rw [hp]
  simp only [Option.bind_some]
  cases p.aliasName with
  | some al => rfl
  | none =>
    cases (inP.get? n).bind (·.aliasName) <;> rfl

theorem mayReturn_returnName {inP outP : PropDict} {n : String} {p : QProps} (h : outP.get? n = some p) :
    MayReturn inP n p (returnName inP outP n) := by
  unfold returnName MayReturn
  rw [h]
  dsimp only
  cases hp : p.aliasName with
  | some al => right; left; simp
  | none =>
    cases hi : inP.get? n with
    | none => left; simp
    | some ip =>
      cases ha : ip.aliasName with
      | none => left; simp [ha]
      | some al => right; right; exact ⟨ip, rfl, by simp [ha]⟩

theorem returnName_of_not_mem {inP outP : PropDict} {n : String} (h : n ∉ outP.keys) :
    returnName inP outP n = n := by
  unfold returnName; rw [(Dict.get?_eq_none_iff _ _).2 h]

theorem keys_renameKeys {α : Type} (ρ : String → String) (d : Dict α) :
    (renameKeys ρ d).keys = d.keys.map ρ := by
  unfold renameKeys Dict.keys; rw [List.map_map, List.map_map]; rfl

/-- Renaming is injective where it matters. -/
theorem returnName_inj {inP outP : PropDict} {raw : Dict NDArray} (hu : Unambiguous inP outP)
    (ha : AvoidsAliases inP outP raw) {kv : String × QProps} (hkv : outP.get? kv.1 = some kv.2)
    {k : String} (hk : k ∈ raw.keys) (h : MayReturn inP kv.1 kv.2 (returnName inP outP k)) : k = kv.1 := by
  by_cases hm : k ∈ outP.keys
  · obtain ⟨p, hp⟩ := Dict.get?_of_mem_keys hm
    exact hu _ (Dict.mem_of_get? hp) kv (Dict.mem_of_get? hkv) _ (mayReturn_returnName hp) h
  · rw [returnName_of_not_mem hm] at h
    exact ha k hk kv (Dict.mem_of_get? hkv) h

theorem get?_renameKeys {α : Type} (ρ : String → String) (d : Dict α) (n : String)
    (h : ∀ k ∈ d.keys, ρ k = ρ n → k = n) : (renameKeys ρ d).get? (ρ n) = d.get? n := by
  induction d with
  | nil => rfl
  | cons kv d ih =>
    show Dict.get? ((ρ kv.1, kv.2) :: renameKeys ρ d) (ρ n) = Dict.get? ((kv.1, kv.2) :: d) n
    rw [Dict.get?_cons, Dict.get?_cons, ih (fun k hk => h k (by simp [hk]))]
    by_cases e : kv.1 = n
    · rw [if_pos e, if_pos (by rw [e])]
    · rw [if_neg e, if_neg (fun e' => e (h kv.1 (by simp) e'))]

theorem extractOutDims_strip (inP : PropDict) (ign : List String) (outP : PropDict)
    (acc : Dict (List String)) :
    extractOutDims (stripAlias inP) ign (stripAlias outP) acc = extractOutDims inP ign outP acc := by
  induction outP generalizing acc with
  | nil => rfl
  | cons kv outP ih =>
    obtain ⟨n, p⟩ := kv
    show extractOutDims (stripAlias inP) ign ((n, { p with aliasName := none }) :: stripAlias outP) acc = _
    unfold extractOutDims
    simp only [ih, get?_stripAlias]
    cases inP.get? n <;> rfl

/-- Restoring what a component returned under aliases equals restoring what it
would have returned under the names. -/
theorem restore_strip {inP outP : PropDict} {raw' : Dict NDArray}
    (hu : Unambiguous inP outP) (ha : AvoidsAliases inP outP raw') (state : State) (ign : List String) :
    restoreDataArrays (renameKeys (returnName inP outP) raw') outP state inP ign false =
      restoreDataArrays raw' (stripAlias outP) state (stripAlias inP) ign false := by
  unfold restoreDataArrays
  simp only [Bool.false_eq_true, if_false]
  rw [getWildcard_strip, extractOutDims_strip]
  cases getWildcard state inP with
  | error e => rfl
  | ok wl =>
    simp only [Exc.ok_bind]
    cases hds : extractOutDims inP ign outP [] with
    | error e => rfl
    | ok ds =>
      simp only [Exc.ok_bind]
      apply restoreLoop_congr
      intro n hnm
      have hn' : n ∈ outP.keys ∧ n ∉ ign := by
        rcases extractOutDims_keys hds n hnm with h | h
        · simp at h
        · exact h
      obtain ⟨p, hp⟩ := Dict.get?_of_mem_keys hn'.1
      refine ⟨⟨hn'.2, hn'.2⟩, ?_, ?_⟩
      · rw [getAliasOrName_strip, getAliasOrName_eq hn'.1]
        apply get?_renameKeys
        intro k hk e
        apply returnName_inj hu ha (kv := (n, p)) hp hk
        rw [e]; exact mayReturn_returnName hp
      · rw [get?_stripAlias, hp]; rfl

theorem mayReturn_strip {inP : PropDict} {n k : String} {p : QProps} :
    MayReturn (stripAlias inP) n { p with aliasName := none } k ↔ k = n := by
  unfold MayReturn
  constructor
  · rintro (h | h | ⟨ip, h1, h2⟩)
    · exact h
    · simp at h
    · rw [get?_stripAlias] at h1
      cases hi : inP.get? n with
      | none => rw [hi] at h1; simp at h1
      | some q => rw [hi] at h1; simp at h1; subst h1; simp at h2
  · intro h; exact Or.inl h

/-- The output checks agree. -/
theorem checkRaw_strip {inP outP : PropDict} {raw' : Dict NDArray} (hn : outP.keys.Nodup)
    (hu : Unambiguous inP outP) (ha : AvoidsAliases inP outP raw') (ign : List String) :
    checkRaw inP outP ign (renameKeys (returnName inP outP) raw') =
      checkRaw (stripAlias inP) (stripAlias outP) ign raw' := by
  have hmem : ∀ {kv}, kv ∈ stripAlias outP ↔ ∃ p, (kv.1, p) ∈ outP ∧ kv.2 = { p with aliasName := none } := by
    intro kv
    unfold stripAlias Dict.mapVal
    rw [List.mem_map]
    constructor
    · rintro ⟨x, hx, rfl⟩; exact ⟨x.2, hx, rfl⟩
    · rintro ⟨p, hp, e⟩; exact ⟨(kv.1, p), hp, Prod.ext rfl e.symm⟩
  have ho : Omitted inP outP ign (renameKeys (returnName inP outP) raw') ↔
      Omitted (stripAlias inP) (stripAlias outP) ign raw' := by
    unfold Omitted
    rw [keys_renameKeys]
    constructor
    · rintro ⟨kv, hkv, h1, h2⟩
      refine ⟨(kv.1, { kv.2 with aliasName := none }), hmem.2 ⟨kv.2, hkv, rfl⟩, h1, ?_⟩
      intro k hk hm
      rw [mayReturn_strip] at hm
      subst hm
      exact h2 _ (List.mem_map_of_mem hk) (mayReturn_returnName (Dict.get?_of_mem hn hkv))
    · rintro ⟨kv, hkv, h1, h2⟩
      obtain ⟨p, hp, e⟩ := hmem.1 hkv
      refine ⟨(kv.1, p), hp, h1, ?_⟩
      intro k hk hm
      obtain ⟨k', hk', rfl⟩ := List.mem_map.1 hk
      have := returnName_inj hu ha (kv := (kv.1, p)) (Dict.get?_of_mem hn hp) hk' hm
      apply h2 k' hk'
      rw [e, mayReturn_strip]; exact this
  have hd : Undeclared inP outP (renameKeys (returnName inP outP) raw') ↔
      Undeclared (stripAlias inP) (stripAlias outP) raw' := by
    unfold Undeclared
    rw [keys_renameKeys]
    constructor
    · rintro ⟨k, hk, h⟩
      obtain ⟨k', hk', rfl⟩ := List.mem_map.1 hk
      refine ⟨k', hk', ?_⟩
      intro kv hkv hm
      obtain ⟨p, hp, e⟩ := hmem.1 hkv
      rw [e, mayReturn_strip] at hm
      subst hm
      exact h _ hp (mayReturn_returnName (Dict.get?_of_mem hn hp))
    · rintro ⟨k, hk, h⟩
      refine ⟨_, List.mem_map_of_mem hk, ?_⟩
      intro kv hkv hm
      have := returnName_inj hu ha (Dict.get?_of_mem hn hkv) hk hm
      exact h (kv.1, { kv.2 with aliasName := none }) (hmem.2 ⟨kv.2, hkv, rfl⟩)
        (mayReturn_strip.2 this)
  rcases checkRaw_cases inP outP ign (renameKeys (returnName inP outP) raw') with ⟨h, a1, a2⟩ | ⟨h, a1⟩ | ⟨h, a1, a2⟩ <;>
  rcases checkRaw_cases (stripAlias inP) (stripAlias outP) ign raw' with ⟨h', b1, b2⟩ | ⟨h', b1⟩ | ⟨h', b1, b2⟩ <;>
  first
    | exact h.trans h'.symm
    | exact absurd (ho.2 b1) a1
    | exact absurd (ho.1 a1) b1
    | exact absurd (hd.2 b2) a2
    | exact absurd (hd.1 a2) b2

theorem erase_renameKeys {α : Type} (ρ : String → String) (d : Dict α) (t : String)
    (h : ∀ k ∈ d.keys, ρ k = t ↔ k = t) : (renameKeys ρ d).erase t = renameKeys ρ (d.erase t) := by
  induction d with
  | nil => rfl
  | cons kv d ih =>
    obtain ⟨k, v⟩ := kv
    show Dict.erase ((ρ k, v) :: renameKeys ρ d) t = renameKeys ρ (Dict.erase ((k, v) :: d) t)
    unfold Dict.erase
    have hk := h k (by simp)
    by_cases e : k = t
    · rw [if_pos e, if_pos (hk.2 e)]
    · rw [if_neg e, if_neg (fun e' => e (hk.1 e')), ih (fun k hk => h k (by simp [hk]))]
      rfl

/-! ## Construction -/

theorem mapVal_set {α β : Type} (f : α → β) (d : Dict α) (k : String) (v : α) :
    (d.set k v).mapVal f = (d.mapVal f).set k (f v) := by
  induction d with
  | nil => rfl
  | cons kv d ih =>
    obtain ⟨a, w⟩ := kv
    show Dict.mapVal f (Dict.set ((a, w) :: d) k v) = Dict.set ((a, f w) :: Dict.mapVal f d) k (f v)
    unfold Dict.set
    split
    · rfl
    · rw [← ih]; rfl

theorem checkInputEntries_strip (p : PropDict) : checkInputEntries (stripAlias p) = checkInputEntries p := by
  induction p with
  | nil => rfl
  | cons kv p ih =>
    show checkInputEntries ((kv.1, { kv.2 with aliasName := none }) :: stripAlias p) = _
    unfold checkInputEntries; simp only [ih]

theorem checkAliases_strip (p : PropDict) (seen : List String) : checkAliases (stripAlias p) seen = .ok () := by
  induction p with
  | nil => rfl
  | cons kv p ih => exact ih

theorem checkOutEntries_strip (inP p : PropDict) :
    checkOutEntries (stripAlias inP) (stripAlias p) = checkOutEntries inP p := by
  induction p with
  | nil => rfl
  | cons kv p ih =>
    show checkOutEntries (stripAlias inP) ((kv.1, { kv.2 with aliasName := none }) :: stripAlias p) = _
    unfold checkOutEntries; simp only [ih, keys_stripAlias]

theorem checkUnits_strip (R : Registry) (f : String → String) (inP p : PropDict) :
    checkUnits R f (stripAlias inP) (stripAlias p) = checkUnits R f inP p := by
  induction p with
  | nil => rfl
  | cons kv p ih =>
    show checkUnits R f (stripAlias inP) ((kv.1, { kv.2 with aliasName := none }) :: stripAlias p) = _
    unfold checkUnits; simp only [ih, get?_stripAlias]
    cases inP.get? kv.1 <;> rfl

theorem runCheckers_strip {R : Registry} {c : Class} (h : runCheckers R c = .ok ()) :
    runCheckers R c.strip = .ok () := by
  unfold runCheckers inputChecker diagnosticChecker tendencyChecker outputChecker at h ⊢
  obtain ⟨_, h1, h⟩ := Exc.bind_ok_iff.1 h
  obtain ⟨_, h2, _⟩ := Exc.bind_ok_iff.1 h1
  simp only [Class.strip, checkInputEntries_strip, checkAliases_strip, checkOutEntries_strip,
    checkUnits_strip, h2, Exc.ok_bind]
  cases hk : c.kind <;> rw [hk] at h <;> dsimp only at h ⊢
  · obtain ⟨_, h3, h4⟩ := Exc.bind_ok_iff.1 h
    obtain ⟨_, h5, h6⟩ := Exc.bind_ok_iff.1 h3
    obtain ⟨_, h7, _⟩ := Exc.bind_ok_iff.1 h6
    obtain ⟨_, h8, h9⟩ := Exc.bind_ok_iff.1 h4
    obtain ⟨_, _, h10⟩ := Exc.bind_ok_iff.1 h9
    simp [h5, h7, h8, h10]
  · obtain ⟨_, h3, h4⟩ := Exc.bind_ok_iff.1 h
    obtain ⟨_, h5, h6⟩ := Exc.bind_ok_iff.1 h3
    obtain ⟨_, _, h7⟩ := Exc.bind_ok_iff.1 h6
    obtain ⟨_, h8, h9⟩ := Exc.bind_ok_iff.1 h4
    obtain ⟨_, h10, _⟩ := Exc.bind_ok_iff.1 h9
    simp [h5, h7, h8, h10]
  · obtain ⟨_, h3, h4⟩ := Exc.bind_ok_iff.1 h
    obtain ⟨_, h5, h6⟩ := Exc.bind_ok_iff.1 h3
    obtain ⟨_, h7, _⟩ := Exc.bind_ok_iff.1 h6
    obtain ⟨_, h8, h9⟩ := Exc.bind_ok_iff.1 h4
    obtain ⟨_, _, h10⟩ := Exc.bind_ok_iff.1 h9
    simp [h5, h7, h8, h10]
  · obtain ⟨_, h5, h6⟩ := Exc.bind_ok_iff.1 h
    obtain ⟨_, h7, _⟩ := Exc.bind_ok_iff.1 h6
    simp [h5, h7]

theorem insertedDims_strip (inP : PropDict) (n : String) (p : QProps) :
    insertedDims (stripAlias inP) n { p with aliasName := none } = insertedDims inP n p := by
  unfold insertedDims
  rw [get?_stripAlias]
  cases inP.get? n <;> rfl

theorem insertTendencyProps_strip (inst : String) (inP outP diag : PropDict) (added : List String) :
    insertTendencyProps inst (stripAlias inP) (stripAlias outP) (stripAlias diag) added =
      (insertTendencyProps inst inP outP diag added >>= fun r => .ok (stripAlias r.1, r.2)) := by
  induction outP generalizing diag added with
  | nil => rfl
  | cons kv outP ih =>
    show insertTendencyProps inst (stripAlias inP) ((kv.1, { kv.2 with aliasName := none }) :: stripAlias outP)
      (stripAlias diag) added = _
    unfold insertTendencyProps
    rw [insertedDims_strip]
    cases insertedDims inP kv.1 kv.2 with
    | error e => rfl
    | ok d =>
      simp only [Exc.ok_bind]
      rw [← ih]
      congr 1
      exact (mapVal_set (fun q : QProps => { q with aliasName := none }) diag _
        { dims := some d, units := kv.2.units }).symm

theorem insertStepperProps_strip (inst : String) (outP diag inP : PropDict) (added : List String) :
    insertStepperProps inst (stripAlias outP) (stripAlias diag) (stripAlias inP) added =
      (stripAlias (insertStepperProps inst outP diag inP added).1,
       stripAlias (insertStepperProps inst outP diag inP added).2.1,
       (insertStepperProps inst outP diag inP added).2.2) := by
  induction outP generalizing diag inP added with
  | nil => rfl
  | cons kv outP ih =>
    obtain ⟨n, p⟩ := kv
    show insertStepperProps inst ((n, { p with aliasName := none }) :: stripAlias outP)
      (stripAlias diag) (stripAlias inP) added = _
    unfold insertStepperProps
    rw [insertedDims_strip]
    cases p.units with
    | none => rfl
    | some u =>
      cases insertedDims inP n p with
      | error e => rfl
      | ok d =>
        dsimp only
        have hset : ∀ q : QProps, q.aliasName = none → ∀ (k : String) (e : PropDict),
            (stripAlias e).set k q = stripAlias (e.set k q) := by
          intro q hq k e
          have : q = { q with aliasName := none } := by cases q; simp at hq; simp [hq]
          conv_lhs => rw [this]
          exact (mapVal_set _ e k q).symm
        rw [get?_stripAlias, hset _ rfl]
        cases inP.get? n with
        | none =>
          simp only [Option.map_none]
          rw [hset _ rfl, ih]
        | some ip =>
          simp only [Option.map_some]
          split
          · rfl
          · split
            · rfl
            · rw [ih]

/-- **C15, construction.**  If a component with aliases can be created, so can the
same component without aliases, giving an identical instance. -/
theorem aliases_transparent_construct (R : Registry) (g g' : Tracers) (c c' : Class) (tid : Bool)
    (name : String) (i : Inst) (h : construct R g c tid name = (g', c', .ok i)) :
    construct R g c.strip tid name = (g', c'.strip, .ok i) := by
  have hins : insertProps c.strip name = ((insertProps c name).1.strip, (insertProps c name).2) := by
    unfold insertProps
    rw [show c.strip.kind = c.kind from rfl]
    cases hk : c.kind with
    | stepper =>
      dsimp only
      rw [show c.strip.outProps = stripAlias c.outProps from rfl,
        show c.strip.diagProps = stripAlias c.diagProps from rfl,
        show c.strip.inProps = stripAlias c.inProps from rfl, insertStepperProps_strip]
      rfl
    | diagnostic => rfl
    | _ =>
      dsimp only
      rw [show c.strip.outProps = stripAlias c.outProps from rfl,
        show c.strip.diagProps = stripAlias c.diagProps from rfl,
        show c.strip.inProps = stripAlias c.inProps from rfl, insertTendencyProps_strip]
      cases insertTendencyProps name c.inProps c.outProps c.diagProps [] with
      | error e => rfl
      | ok r => rfl
  have hpk : ∀ d : Class, makePacker g d.strip = makePacker g d := by
    intro d
    unfold makePacker
    show (if d.kind ≠ .diagnostic ∧ d.usesTracers = true then
      match d.tracerDims with | none => _ | some td => _ else _) = _
    rw [show d.strip.outProps.keys = d.outProps.keys from keys_stripAlias _]
    rfl
  unfold construct at h ⊢
  cases hr : runCheckers R c with
  | error e => rw [hr] at h; simp at h
  | ok u =>
    rw [hr] at h
    rw [runCheckers_strip hr]
    cases tid with
    | false =>
      simp only [Bool.false_eq_true, if_false] at h ⊢
      rw [hpk]
      simp only [Prod.mk.injEq] at h ⊢
      exact ⟨h.1, by rw [h.2.1], h.2.2⟩
    | true =>
      simp only [if_true] at h ⊢
      rw [hins]
      cases hi : (insertProps c name).2 with
      | error e => rw [hi] at h; simp at h
      | ok added =>
        rw [hi] at h
        simp only [Prod.mk.injEq] at h ⊢
        rw [hpk]
        exact ⟨h.1, by rw [h.2.1], h.2.2⟩

/-- Non-vacuity. -/
example : (Exc.test (construct Demo.reg {} Demo.cls true "me").2.2 (fun _ => true) &&
    Exc.test (construct Demo.reg {} Demo.cls.strip true "me").2.2 (fun _ => true)) = true := by
  decide +kernel

/-! ## Calls -/

theorem prepare_strip {R : Registry} {g : Tracers} {c : Class} {i : Inst} {state : State}
    (hn : c.inProps.keys.Nodup) (ho : (c.inProps.map outName).Nodup)
    (ht : ∀ kv ∈ c.inProps, kv.1 ≠ "tracers" ∧ outName kv ≠ "tracers") :
    (∀ e, prepare R g c.strip i state = .error e → prepare R g c i state = .error e) ∧
    (∀ raw', prepare R g c.strip i state = .ok raw' →
      ∃ raw, prepare R g c i state = .ok raw ∧ SameInputs c.inProps raw raw') := by
  have h1 : checkInputs c.strip.inProps state = checkInputs c.inProps state := by
    unfold checkInputs
    rw [show c.strip.inProps.keys = c.inProps.keys from keys_stripAlias _]
  have h2 := aliased_inputs_same R state c.inProps hn ho
  have hnt : ∀ raw', getNumpyArrays R state (stripAlias c.inProps) = .ok raw' → raw'.get? "tracers" = none := by
    intro raw' h
    unfold getNumpyArrays at h
    rw [getWildcard_strip] at h
    obtain ⟨wl, _, h⟩ := Exc.bind_ok_iff.1 h
    obtain ⟨r, _, _, _, q⟩ := (rawInputs_strip R state (wl.1.getD []) wl.2 c.inProps hn ho [] []).2 raw' h
    rw [q "tracers"]
    · rfl
    · intro hc
      obtain ⟨p, hp⟩ := Dict.get?_of_mem_keys hc
      exact (ht _ (Dict.mem_of_get? hp)).1 rfl
  unfold prepare
  rw [h1]
  cases checkInputs c.inProps state with
  | error e => exact ⟨fun e' h => h, fun r h => by cases h⟩
  | ok _ =>
    simp only [Exc.ok_bind]
    show (∀ e, (getNumpyArrays R state (stripAlias c.inProps) >>= _) = .error e → _) ∧
      (∀ raw', (getNumpyArrays R state (stripAlias c.inProps) >>= _) = .ok raw' → _)
    cases h3 : getNumpyArrays R state (stripAlias c.inProps) with
    | error e =>
      rw [h2.1 e h3]
      exact ⟨fun e' h => h, fun r h => by cases h⟩
    | ok raw' =>
      obtain ⟨raw, q1, q2, q3⟩ := h2.2 raw' h3
      rw [q1]
      simp only [Exc.ok_bind]
      have hnone : raw.get? "tracers" = none := by
        rw [Dict.get?_eq_none_iff, q3]
        intro hc
        obtain ⟨kv, hkv, e⟩ := List.mem_map.1 hc
        exact (ht kv hkv).2 e
      cases i.packer with
      | none =>
        simp only [Exc.ok_bind]
        cases Dict.get state "time" with
        | error e => exact ⟨fun e' h => h, fun r h => by cases h⟩
        | ok tm =>
          refine ⟨fun e h => (by cases h), fun r h => ?_⟩
          cases h
          exact ⟨_, rfl, rfl, by rw [hnt raw' h3, hnone], q2⟩
      | some p =>
        dsimp only
        cases p.pack R g state with
        | error e => exact ⟨fun e' h => h, fun r h => by cases h⟩
        | ok t =>
          simp only [Exc.ok_bind]
          cases Dict.get state "time" with
          | error e => exact ⟨fun e' h => h, fun r h => by cases h⟩
          | ok tm =>
            refine ⟨fun e h => (by cases h), fun r h => ?_⟩
            cases h
            refine ⟨_, rfl, rfl, by simp, ?_⟩
            intro kv hkv
            show (raw.set "tracers" t).get? _ = (raw'.set "tracers" t).get? _
            rw [Dict.get?_set_ne _ _ (fun e => (ht kv hkv).2 e.symm),
              Dict.get?_set_ne _ _ (fun e => (ht kv hkv).1 e.symm), q2 kv hkv]

theorem takeTracers_strip {g : Tracers} {i : Inst} {raw' : Dict NDArray} {state : State} {mul : String}
    {inP outP : PropDict} (ht : ∀ kv ∈ outP, ¬ MayReturn inP kv.1 kv.2 "tracers") :
    takeTracers g i (renameKeys (returnName inP outP) raw') state mul =
      (takeTracers g i raw' state mul >>= fun tr => .ok (tr.1, renameKeys (returnName inP outP) tr.2)) := by
  have hiff : ∀ k, returnName inP outP k = "tracers" ↔ k = "tracers" := by
    intro k
    by_cases hk : k ∈ outP.keys
    · obtain ⟨p, hp⟩ := Dict.get?_of_mem_keys hk
      have hm := Dict.mem_of_get? hp
      constructor
      · intro e
        exact absurd (e ▸ mayReturn_returnName hp) (ht _ hm)
      · intro e
        exact absurd (Or.inl e.symm) (ht _ hm)
    · rw [returnName_of_not_mem hk]
  unfold takeTracers
  cases i.packer with
  | none => rfl
  | some p =>
    dsimp only
    have hg : (renameKeys (returnName inP outP) raw').get "tracers" = raw'.get "tracers" := by
      unfold Dict.get
      have := get?_renameKeys (returnName inP outP) raw' "tracers" (by
        intro k _ e
        rw [(hiff "tracers").2 rfl] at e
        exact (hiff k).1 e)
      rw [(hiff "tracers").2 rfl] at this
      rw [this]
    rw [hg, erase_renameKeys _ _ _ (fun k _ => hiff k)]
    cases raw'.get "tracers" with
    | error e => rfl
    | ok t =>
      simp only [Exc.ok_bind]
      cases p.unpack g t state mul with
      | error e => rfl
      | ok out => rfl

theorem takeTracers_sub {g : Tracers} {i : Inst} {raw : Dict NDArray} {state : State} {mul : String}
    {tr : Dict DataArray × Dict NDArray} (h : takeTracers g i raw state mul = .ok tr) :
    ∀ k ∈ tr.2.keys, k ∈ raw.keys := by
  obtain ⟨_, t1, t2⟩ := takeTracers_keys h
  intro k hk
  by_cases hp : i.packer = none
  · rw [t1 hp] at hk; exact hk
  · rw [t2 hp, Dict.keys_erase] at hk
    exact List.mem_of_mem_erase hk

/-- A component with aliases does the same as one without: given the same arrays
(under aliases / under names) it ends in the same internal state and raises the
same exception or returns the same arrays (under aliases / under names). -/
def SameBehaviour {σ : Type} (inP p1 p2 : PropDict)
    (r r' : σ × Except Err (Dict NDArray × Dict NDArray)) : Prop :=
  r.1 = r'.1 ∧ (∀ e, r'.2 = .error e → r.2 = .error e) ∧
  ∀ a b, r'.2 = .ok (a, b) →
    r.2 = .ok (renameKeys (returnName inP p1) a, renameKeys (returnName inP p2) b)

/-- **C15, tendency components.**  Take any component without aliases (class
`c.strip`, code `arrayCall'`) and the same component written with aliases (class
`c`, code `arrayCall`).  Their calls give the same result on every state: same
returned quantities and values, same exception, same internal effect.

Hypotheses: no key stands for two quantities, `tracers` is not used as a name or
alias, and the code without aliases does not return undeclared keys that happen to
be aliases. -/
theorem aliases_transparent_tendency {σ : Type} (R : Registry) (g : Tracers) (c : Class) (i : Inst)
    (arrayCall arrayCall' : σ → RawState → σ × Except Err (Dict NDArray × Dict NDArray)) (s : σ)
    (state : State)
    (hin : c.inProps.keys.Nodup) (hout : c.outProps.keys.Nodup) (hdiag : c.diagProps.keys.Nodup)
    (hio : (c.inProps.map outName).Nodup)
    (huo : Unambiguous c.inProps c.outProps) (hud : Unambiguous c.inProps c.diagProps)
    (hti : ∀ kv ∈ c.inProps, kv.1 ≠ "tracers" ∧ outName kv ≠ "tracers")
    (hto : ∀ kv ∈ c.outProps, ¬ MayReturn c.inProps kv.1 kv.2 "tracers")
    (hac : ∀ raw raw', SameInputs c.inProps raw raw' →
      SameBehaviour c.inProps c.outProps c.diagProps (arrayCall s raw) (arrayCall' s raw'))
    (hret : ∀ raw' a b, (arrayCall' s raw').2 = .ok (a, b) →
      AvoidsAliases c.inProps c.outProps a ∧ AvoidsAliases c.inProps c.diagProps b) :
    callTendency R g c i arrayCall s state = callTendency R g c.strip i arrayCall' s state := by
  obtain ⟨p1, p2⟩ := prepare_strip (R := R) (g := g) (i := i) (state := state) hin hio hti
  unfold callTendency
  cases hp : prepare R g c.strip i state with
  | error e => rw [p1 e hp]
  | ok raw' =>
    obtain ⟨raw, q1, q2⟩ := p2 raw' hp
    rw [q1]
    dsimp only
    obtain ⟨b1, b2, b3⟩ := hac raw raw' q2
    rw [b1]
    congr 1
    cases hr : (arrayCall' s raw').2 with
    | error e => rw [b2 e hr]; rfl
    | ok r =>
      obtain ⟨a, b⟩ := r
      rw [b3 a b hr]
      obtain ⟨a1, a2⟩ := hret raw' a b hr
      simp only [Exc.ok_bind]
      unfold finishTendency
      rw [takeTracers_strip hto]
      show _ = takeTracers g i a state c.tendencyTimeUnit >>= _
      cases htk : takeTracers g i a state c.tendencyTimeUnit with
      | error e => rfl
      | ok tr =>
        simp only [Exc.ok_bind]
        have a1' : AvoidsAliases c.inProps c.outProps tr.2 :=
          fun k hk => a1 k (takeTracers_sub htk k hk)
        rw [checkRaw_strip hout huo a1', checkRaw_strip hdiag hud a2, restore_strip huo a1',
          restore_strip hud a2]
        rfl

/-- **C15, Steppers** (without `tendencies_in_diagnostics`, with which an aliased
output raises KeyError: `stepper_alias_tendencies_keyError`). -/
theorem aliases_transparent_stepper_partial {σ : Type} (R : Registry) (g : Tracers) (c : Class) (i : Inst)
    (arrayCall arrayCall' : σ → RawState → Int → σ × Except Err (Dict NDArray × Dict NDArray)) (s : σ)
    (state : State) (dt : Int) (htid : i.tid = false)
    (hin : c.inProps.keys.Nodup) (hout : c.outProps.keys.Nodup) (hdiag : c.diagProps.keys.Nodup)
    (hio : (c.inProps.map outName).Nodup)
    (huo : Unambiguous c.inProps c.outProps) (hud : Unambiguous c.inProps c.diagProps)
    (hti : ∀ kv ∈ c.inProps, kv.1 ≠ "tracers" ∧ outName kv ≠ "tracers")
    (hto : ∀ kv ∈ c.outProps, ¬ MayReturn c.inProps kv.1 kv.2 "tracers")
    (hac : ∀ raw raw', SameInputs c.inProps raw raw' →
      SameBehaviour c.inProps c.diagProps c.outProps (arrayCall s raw dt) (arrayCall' s raw' dt))
    (hret : ∀ raw' a b, (arrayCall' s raw' dt).2 = .ok (a, b) →
      AvoidsAliases c.inProps c.diagProps a ∧ AvoidsAliases c.inProps c.outProps b) :
    callStepper R g c i arrayCall s state dt = callStepper R g c.strip i arrayCall' s state dt := by
  obtain ⟨p1, p2⟩ := prepare_strip (R := R) (g := g) (i := i) (state := state) hin hio hti
  unfold callStepper
  cases hp : prepare R g c.strip i state with
  | error e => rw [p1 e hp]
  | ok raw' =>
    obtain ⟨raw, q1, q2⟩ := p2 raw' hp
    rw [q1]
    dsimp only
    obtain ⟨b1, b2, b3⟩ := hac raw raw' q2
    rw [b1]
    congr 1
    cases hr : (arrayCall' s raw' dt).2 with
    | error e => rw [b2 e hr]; rfl
    | ok r =>
      obtain ⟨a, b⟩ := r
      rw [b3 a b hr]
      obtain ⟨a1, a2⟩ := hret raw' a b hr
      simp only [Exc.ok_bind]
      unfold finishStepper
      rw [takeTracers_strip hto, htid]
      simp only [Bool.false_eq_true, if_false]
      cases htk : takeTracers g i b state "" with
      | error e => rfl
      | ok tr =>
        simp only [Exc.ok_bind]
        have a2' : AvoidsAliases c.inProps c.outProps tr.2 :=
          fun k hk => a2 k (takeTracers_sub htk k hk)
        rw [checkRaw_strip hout huo a2', checkRaw_strip hdiag hud a1, restore_strip huo a2',
          restore_strip hud a1]
        rfl

/-- **C15, DiagnosticComponents.** -/
theorem aliases_transparent_diagnostic {σ : Type} (R : Registry) (g : Tracers) (c : Class) (i : Inst)
    (arrayCall arrayCall' : σ → RawState → σ × Except Err (Dict NDArray)) (s : σ) (state : State)
    (hin : c.inProps.keys.Nodup) (hdiag : c.diagProps.keys.Nodup)
    (hio : (c.inProps.map outName).Nodup) (hud : Unambiguous c.inProps c.diagProps)
    (hti : ∀ kv ∈ c.inProps, kv.1 ≠ "tracers" ∧ outName kv ≠ "tracers")
    (hac : ∀ raw raw', SameInputs c.inProps raw raw' →
      (arrayCall s raw).1 = (arrayCall' s raw').1 ∧
      (∀ e, (arrayCall' s raw').2 = .error e → (arrayCall s raw).2 = .error e) ∧
      (∀ a, (arrayCall' s raw').2 = .ok a →
        (arrayCall s raw).2 = .ok (renameKeys (returnName c.inProps c.diagProps) a)))
    (hret : ∀ raw' a, (arrayCall' s raw').2 = .ok a → AvoidsAliases c.inProps c.diagProps a) :
    callDiagnostic R g c i arrayCall s state = callDiagnostic R g c.strip i arrayCall' s state := by
  obtain ⟨p1, p2⟩ := prepare_strip (R := R) (g := g) (i := i) (state := state) hin hio hti
  unfold callDiagnostic
  cases hp : prepare R g c.strip i state with
  | error e => rw [p1 e hp]
  | ok raw' =>
    obtain ⟨raw, q1, q2⟩ := p2 raw' hp
    rw [q1]
    dsimp only
    obtain ⟨b1, b2, b3⟩ := hac raw raw' q2
    rw [b1]
    congr 1
    cases hr : (arrayCall' s raw').2 with
    | error e => rw [b2 e hr]; rfl
    | ok a =>
      rw [b3 a hr]
      simp only [Exc.ok_bind]
      unfold finishDiagnostic
      rw [checkRaw_strip hdiag hud (hret raw' a hr), restore_strip hud (hret raw' a hr)]
      rfl

/-- The demo component without aliases: reads and returns `T` instead of `temp`. -/
def Demo.ac' : Nat → RawState → Nat × Except Err (Dict NDArray × Dict NDArray) := fun n raw =>
  (n + 1, raw.arrays.get "T" >>= fun t => raw.arrays.get "h" >>= fun h =>
    .ok ([("T", t.map (2 * ·))], [("h2", h)]))

/-- Non-vacuity: the hypotheses hold of the demo component, whose calls succeed. -/
example : callTendency Demo.reg {} Demo.cls (Demo.made false).2 Demo.ac 0 Demo.state =
      callTendency Demo.reg {} Demo.cls.strip (Demo.made false).2 Demo.ac' 0 Demo.state ∧
    Exc.test (callTendency Demo.reg {} Demo.cls (Demo.made false).2 Demo.ac 0 Demo.state).2
      (fun r => decide (Dict.keys r.1 = ["T"])) = true := by
  refine ⟨?_, by decide +kernel⟩
  have hmr : ∀ (n k : String) (p : QProps), MayReturn Demo.cls.inProps n p k →
      k = n ∨ p.aliasName = some k ∨ (n = "T" ∧ k = "temp") := by
    rintro n k p (h | h | ⟨ip, h1, h2⟩)
    · exact Or.inl h
    · exact Or.inr (Or.inl h)
    · have := Dict.mem_of_get? h1
      simp only [Demo.cls, List.mem_cons, Prod.mk.injEq, List.not_mem_nil, or_false] at this
      rcases this with ⟨e, rfl⟩ | ⟨e, rfl⟩
      · simp at h2; exact Or.inr (Or.inr ⟨e, h2.symm⟩)
      · simp at h2
  apply aliases_transparent_tendency
  · decide
  · decide
  · decide
  · decide
  · intro kv hkv kv' hkv'
    simp only [Demo.cls, List.mem_cons, List.not_mem_nil, or_false] at hkv hkv'
    intro k _ _
    rw [hkv, hkv']
  · intro kv hkv kv' hkv'
    simp only [Demo.cls, List.mem_cons, List.not_mem_nil, or_false] at hkv hkv'
    intro k _ _
    rw [hkv, hkv']
  · decide
  · intro kv hkv hm
    simp only [Demo.cls, List.mem_cons, List.not_mem_nil, or_false] at hkv
    subst hkv
    rcases hmr _ _ _ hm with h | h | h <;> revert h <;> decide
  · rintro raw raw' ⟨_, _, h⟩
    have h1 : raw.arrays.get? "temp" = raw'.arrays.get? "T" :=
      h ("T", { dims := some ["z", "*"], units := some "K", aliasName := some "temp" }) (by simp [Demo.cls])
    have h2 : raw.arrays.get? "h" = raw'.arrays.get? "h" :=
      h ("h", { dims := some ["z"], units := some "m" }) (by simp [Demo.cls])
    refine ⟨rfl, ?_, ?_⟩
    · intro e he
      simp only [Demo.ac, Demo.ac', Dict.get, h1, h2] at he ⊢
      cases hT : raw'.arrays.get? "T" with
      | none => rw [hT] at he; exact he
      | some t =>
        rw [hT] at he
        cases hh : raw'.arrays.get? "h" with
        | none => rw [hh] at he; exact he
        | some t => rw [hh] at he; cases he
    · intro a b he
      simp only [Demo.ac, Demo.ac', Dict.get, h1, h2] at he ⊢
      cases hT : raw'.arrays.get? "T" with
      | none => rw [hT] at he; cases he
      | some t =>
        rw [hT] at he
        cases hh : raw'.arrays.get? "h" with
        | none => rw [hh] at he; cases he
        | some t => rw [hh] at he; cases he; rfl
  · intro raw' a b he
    simp only [Demo.ac', Dict.get] at he
    cases hT : raw'.arrays.get? "T" with
    | none => rw [hT] at he; cases he
    | some t =>
      rw [hT] at he
      cases hh : raw'.arrays.get? "h" with
      | none => rw [hh] at he; cases he
      | some t =>
        rw [hh] at he; cases he
        constructor
        · intro k hk kv hkv _
          simp only [Demo.cls, Dict.keys_cons, Dict.keys_nil, List.mem_cons, List.not_mem_nil, or_false] at hk hkv
          rw [hk, hkv]
        · intro k hk kv hkv _
          simp only [Demo.cls, Dict.keys_cons, Dict.keys_nil, List.mem_cons, List.not_mem_nil, or_false] at hk hkv
          rw [hk, hkv]

/-- A Stepper that changes `T`, known to its code as `temp`. -/
def Demo.aliasStep : Class where
  kind := .stepper
  inProps := [("T", { dims := some ["x", "z", "y"], units := some "K", aliasName := some "temp" })]
  outProps := [("T", { units := some "K" })]
  diagProps := []

def Demo.aliasStepAc (key : String) (_ : Nat) (raw : RawState) (_ : Int) :
    Nat × Except Err (Dict NDArray × Dict NDArray) :=
  (1, raw.arrays.get key >>= fun t => .ok ([], [(key, t.map (2 * ·))]))

/-- Non-vacuity of the Stepper theorem. -/
example : callStepper Demo.reg {} Demo.aliasStep (Demo.made false Demo.aliasStep).2
      (Demo.aliasStepAc "temp") 0 Demo.state 1000000 =
    callStepper Demo.reg {} Demo.aliasStep.strip (Demo.made false Demo.aliasStep).2
      (Demo.aliasStepAc "T") 0 Demo.state 1000000 ∧
    Exc.test (callStepper Demo.reg {} Demo.aliasStep (Demo.made false Demo.aliasStep).2
      (Demo.aliasStepAc "temp") 0 Demo.state 1000000).2 (fun r => decide (Dict.keys r.2 = ["T"])) = true := by
  refine ⟨?_, by decide +kernel⟩
  apply aliases_transparent_stepper_partial
  · decide +kernel
  · decide
  · decide
  · decide
  · decide
  · intro kv hkv kv' hkv'
    simp only [Demo.aliasStep, List.mem_cons, List.not_mem_nil, or_false] at hkv hkv'
    intro k _ _
    rw [hkv, hkv']
  · intro kv hkv; cases hkv
  · decide
  · rintro kv hkv (h | h | ⟨ip, h1, h2⟩)
    · simp only [Demo.aliasStep, List.mem_cons, List.not_mem_nil, or_false] at hkv
      subst hkv; revert h; decide
    · simp only [Demo.aliasStep, List.mem_cons, List.not_mem_nil, or_false] at hkv
      subst hkv; simp at h
    · have := Dict.mem_of_get? h1
      simp only [Demo.aliasStep, List.mem_cons, Prod.mk.injEq, List.not_mem_nil, or_false] at this
      rw [this.2] at h2
      simp at h2
  · rintro raw raw' ⟨_, _, h⟩
    have h1 : raw.arrays.get? "temp" = raw'.arrays.get? "T" :=
      h ("T", { dims := some ["x", "z", "y"], units := some "K", aliasName := some "temp" })
        (by simp [Demo.aliasStep])
    refine ⟨rfl, ?_, ?_⟩
    · intro e he
      simp only [Demo.aliasStepAc, Dict.get, h1] at he ⊢
      cases hT : raw'.arrays.get? "T" with
      | none => rw [hT] at he; exact he
      | some t => rw [hT] at he; cases he
    · intro a b he
      simp only [Demo.aliasStepAc, Dict.get, h1] at he ⊢
      cases hT : raw'.arrays.get? "T" with
      | none => rw [hT] at he; cases he
      | some t => rw [hT] at he; cases he; rfl
  · intro raw' a b he
    simp only [Demo.aliasStepAc, Dict.get] at he
    cases hT : raw'.arrays.get? "T" with
    | none => rw [hT] at he; cases he
    | some t =>
      rw [hT] at he; cases he
      constructor
      · intro k hk kv hkv _; cases hkv
      · intro k hk kv hkv _
        simp only [Demo.aliasStep, Dict.keys_cons, Dict.keys_nil, List.mem_cons, List.not_mem_nil, or_false] at hk hkv
        rw [hk, hkv]

/-- A diagnostic with an alias for its output. -/
def Demo.aliasDiag : Class where
  kind := .diagnostic
  inProps := [("T", { dims := some ["x", "z", "y"], units := some "K" })]
  outProps := []
  diagProps := [("T2", { dims := some ["x", "z", "y"], units := some "K", aliasName := some "t2" })]

def Demo.aliasDiagAc (key : String) (_ : Nat) (raw : RawState) : Nat × Except Err (Dict NDArray) :=
  (1, raw.arrays.get "T" >>= fun t => .ok [(key, t.map (2 * ·))])

/-- Non-vacuity of the diagnostic theorem. -/
example : callDiagnostic Demo.reg {} Demo.aliasDiag (Demo.made false Demo.aliasDiag).2
      (Demo.aliasDiagAc "t2") 0 Demo.state =
    callDiagnostic Demo.reg {} Demo.aliasDiag.strip (Demo.made false Demo.aliasDiag).2
      (Demo.aliasDiagAc "T2") 0 Demo.state ∧
    Exc.test (callDiagnostic Demo.reg {} Demo.aliasDiag (Demo.made false Demo.aliasDiag).2
      (Demo.aliasDiagAc "t2") 0 Demo.state).2 (fun r => decide (Dict.keys r = ["T2"])) = true := by
  refine ⟨?_, by decide +kernel⟩
  apply aliases_transparent_diagnostic
  · decide
  · decide
  · decide
  · intro kv hkv kv' hkv'
    simp only [Demo.aliasDiag, List.mem_cons, List.not_mem_nil, or_false] at hkv hkv'
    intro k _ _
    rw [hkv, hkv']
  · decide
  · rintro raw raw' ⟨_, _, h⟩
    have h1 : raw.arrays.get? "T" = raw'.arrays.get? "T" :=
      h ("T", { dims := some ["x", "z", "y"], units := some "K" }) (by simp [Demo.aliasDiag])
    refine ⟨rfl, ?_, ?_⟩
    · intro e he
      simp only [Demo.aliasDiagAc, Dict.get, h1] at he ⊢
      cases hT : raw'.arrays.get? "T" with
      | none => rw [hT] at he; exact he
      | some t => rw [hT] at he; cases he
    · intro a he
      simp only [Demo.aliasDiagAc, Dict.get, h1] at he ⊢
      cases hT : raw'.arrays.get? "T" with
      | none => rw [hT] at he; cases he
      | some t => rw [hT] at he; cases he; rfl
  · intro raw' a he
    simp only [Demo.aliasDiagAc, Dict.get] at he
    cases hT : raw'.arrays.get? "T" with
    | none => rw [hT] at he; cases he
    | some t =>
      rw [hT] at he; cases he
      intro k hk kv hkv _
      simp only [Demo.aliasDiag, Dict.keys_cons, Dict.keys_nil, List.mem_cons, List.not_mem_nil, or_false] at hk hkv
      rw [hk, hkv]

end Verif

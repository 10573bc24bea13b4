import Verif.Lemmas.Components
/-! # Lemmas about calls of components: congruence of restoring -/

namespace Verif

theorem Dict.update_eq_append {α : Type} {d e : Dict α} (he : e.keys.Nodup)
    (hd : ∀ k ∈ e.keys, k ∉ d.keys) : d.update e = d ++ e := by
  induction e generalizing d with
  | nil => simp
  | cons kv e ih =>
    rw [Dict.keys_cons, List.nodup_cons] at he
    rw [Dict.update_cons, Dict.set_of_not_mem (hd _ (by simp)), ih he.2]
    · simp
    · intro k hk hc
      rw [Dict.keys_append] at hc
      rcases List.mem_append.1 hc with h | h
      · exact hd k (by simp [hk]) h
      · simp at h; subst h; exact he.1 hk

theorem Dict.set_eq_self {α : Type} {d : Dict α} {k : String} {v : α} (h : d.get? k = some v) :
    d.set k v = d := by
  induction d with
  | nil => simp at h
  | cons kv d ih =>
    obtain ⟨a, w⟩ := kv
    rw [Dict.get?_cons] at h
    unfold Dict.set
    split
    · rename_i e; subst e; simp at h; rw [h]
    · rename_i e; rw [if_neg e] at h; rw [ih h]

theorem Dict.update_eq_self {α : Type} {d e : Dict α} (h : ∀ kv ∈ e, d.get? kv.1 = some kv.2) :
    d.update e = d := by
  induction e with
  | nil => rfl
  | cons kv e ih =>
    rw [Dict.update_cons, Dict.set_eq_self (h kv (by simp))]
    exact ih (fun kv hkv => h kv (by simp [hkv]))

theorem Dict.update_update_self {α : Type} {d e : Dict α} (he : e.keys.Nodup) :
    (d.update e).update e = d.update e := by
  apply Dict.update_eq_self
  intro kv hkv
  rw [Dict.get?_update _ _ he, Dict.get?_of_mem he hkv]; rfl

/-- `restoreOne` reads its dictionaries only at one name. -/
theorem restoreOne_congr {raw raw' : Dict NDArray} {outP outP' inP inP' : PropDict}
    {wild : Option (List String)} {lens : Dict Nat} {name : String} {d : List String}
    (hraw : raw.get? (getAliasOrName name outP inP) = raw'.get? (getAliasOrName name outP' inP'))
    (hu : (outP.get? name).bind (·.units) = (outP'.get? name).bind (·.units)) :
    restoreOne raw outP inP wild lens name d = restoreOne raw' outP' inP' wild lens name d := by
  unfold restoreOne
  have : raw.get (getAliasOrName name outP inP) = raw'.get (getAliasOrName name outP' inP') := by
    unfold Dict.get; rw [hraw]
  dsimp only
  rw [this, hu]

theorem restoreLoop_congr {raw raw' : Dict NDArray} {outP outP' inP inP' : PropDict}
    {wild : Option (List String)} {ign ign' : List String} {ds : Dict (List String)}
    (h : ∀ n ∈ ds.keys, (n ∉ ign ∧ n ∉ ign') ∧
      raw.get? (getAliasOrName n outP inP) = raw'.get? (getAliasOrName n outP' inP') ∧
      (outP.get? n).bind (·.units) = (outP'.get? n).bind (·.units)) (lens : Dict Nat) (out : Dict DataArray) :
    restoreLoop raw outP inP wild ign ds lens out = restoreLoop raw' outP' inP' wild ign' ds lens out := by
  induction ds generalizing lens out with
  | nil => rfl
  | cons nd ds ih =>
    obtain ⟨n, d⟩ := nd
    obtain ⟨⟨h1, h2⟩, h3, h4⟩ := h n (by simp)
    unfold restoreLoop
    rw [if_neg h1, if_neg h2, restoreOne_congr h3 h4]
    cases restoreOne raw' outP' inP' wild lens n d with
    | error e => rfl
    | ok r => exact ih (fun n hn => h n (by simp [hn])) _ _

/-- Keys collected by `extractOutDims`. -/
theorem extractOutDims_keys {inProps : PropDict} {ignore : List String} {outProps : PropDict}
    {acc r : Dict (List String)} (h : extractOutDims inProps ignore outProps acc = .ok r) :
    ∀ k ∈ r.keys, k ∈ acc.keys ∨ (k ∈ outProps.keys ∧ k ∉ ignore) := by
  induction outProps generalizing acc with
  | nil => cases h; simp
  | cons kv outProps ih =>
    obtain ⟨n, p⟩ := kv
    unfold extractOutDims at h
    have step : ∀ (d : List String), n ∉ ignore →
        extractOutDims inProps ignore outProps (acc.set n d) = .ok r →
        ∀ k ∈ r.keys, k ∈ acc.keys ∨ (k ∈ Dict.keys ((n, p) :: outProps) ∧ k ∉ ignore) := by
      intro d hn hx k hk
      rcases ih hx k hk with h' | h'
      · rcases (Dict.mem_keys_set _ _ _ _).1 h' with e | h'
        · right; subst e; exact ⟨by simp, hn⟩
        · exact Or.inl h'
      · right; exact ⟨by simp [h'.1], h'.2⟩
    split at h
    · intro k hk
      rcases ih h k hk with h' | h'
      · exact Or.inl h'
      · right; exact ⟨by simp [h'.1], h'.2⟩
    · rename_i hig
      split at h
      · exact step _ hig h
      · split at h
        · cases h
        · split at h
          · cases h
          · exact step _ hig h

theorem extractOutDims_append {inProps : PropDict} {ign : List String} {d0 new : PropDict}
    (h0 : ∀ k ∈ d0.keys, k ∉ ign) (hnew : ∀ k ∈ new.keys, k ∈ ign) (acc : Dict (List String)) :
    extractOutDims inProps ign (d0 ++ new) acc = extractOutDims inProps [] d0 acc := by
  induction d0 generalizing acc with
  | nil =>
    induction new generalizing acc with
    | nil => rfl
    | cons kv new ih =>
      obtain ⟨n, p⟩ := kv
      show extractOutDims inProps ign ((n, p) :: new) acc = _
      unfold extractOutDims
      rw [if_pos (hnew n (by simp))]
      exact ih (fun k hk => hnew k (by simp [hk])) acc
  | cons kv d0 ih =>
    obtain ⟨n, p⟩ := kv
    have ih' := fun acc => ih (fun k hk => h0 k (by simp [hk])) acc
    show extractOutDims inProps ign ((n, p) :: (d0 ++ new)) acc = _
    unfold extractOutDims
    rw [if_neg (h0 n (by simp)), if_neg (by simp)]
    simp only [ih']

theorem getAliasOrName_congr {n : String} {outP outP' inP : PropDict} (h : outP.get? n = outP'.get? n) :
    getAliasOrName n outP inP = getAliasOrName n outP' inP := by
  unfold getAliasOrName; rw [h]

/-- Ignored entries appended to the properties change nothing. -/
theorem restore_append_ignored {raw : Dict NDArray} {d0 new : PropDict} {state : State}
    {inProps : PropDict} {ign : List String} (h0 : ∀ k ∈ d0.keys, k ∉ ign)
    (hnew : ∀ k ∈ new.keys, k ∈ ign) :
    restoreDataArrays raw (d0 ++ new) state inProps ign false =
      restoreDataArrays raw d0 state inProps [] false := by
  unfold restoreDataArrays
  simp only [Bool.false_eq_true, if_false]
  rw [extractOutDims_append h0 hnew]
  cases getWildcard state inProps with
  | error e => rfl
  | ok wl =>
    simp only [Exc.ok_bind]
    cases hds : extractOutDims inProps [] d0 [] with
    | error e => rfl
    | ok ds =>
      simp only [Exc.ok_bind]
      apply restoreLoop_congr
      intro n hn
      have hn' : n ∈ d0.keys := by
        rcases extractOutDims_keys hds n hn with h | h
        · simp at h
        · exact h.1
      have hg : Dict.get? (d0 ++ new) n = Dict.get? d0 n := by
        rw [Dict.get?_append]
        obtain ⟨v, hv⟩ := Dict.get?_of_mem_keys hn'
        rw [hv]; rfl
      refine ⟨⟨h0 n hn', by simp⟩, ?_, by rw [hg]⟩
      rw [getAliasOrName_congr hg]

theorem restoreLoop_nodup {raw : Dict NDArray} {outP inP : PropDict} {wild : Option (List String)}
    {ign : List String} {ds : Dict (List String)} {lens : Dict Nat} {out0 out : Dict DataArray}
    (h : restoreLoop raw outP inP wild ign ds lens out0 = .ok out) (hn : out0.keys.Nodup) :
    out.keys.Nodup := by
  induction ds generalizing lens out0 with
  | nil => cases h; exact hn
  | cons nd ds ih =>
    unfold restoreLoop at h
    split at h
    · exact ih h hn
    · obtain ⟨r, _, h⟩ := Exc.bind_ok_iff.1 h
      exact ih h (Dict.nodup_keys_set hn _ _)

theorem restore_nodup {raw : Dict NDArray} {outP : PropDict} {state : State} {inP : PropDict}
    {ign : List String} {im : Bool} {out : Dict DataArray}
    (h : restoreDataArrays raw outP state inP ign im = .ok out) : out.keys.Nodup := by
  unfold restoreDataArrays at h
  obtain ⟨wl, _, h⟩ := Exc.bind_ok_iff.1 h
  obtain ⟨ds, _, h⟩ := Exc.bind_ok_iff.1 h
  exact restoreLoop_nodup h (by simp)

theorem takeTracers_nodup {g : Tracers} {i : Inst} {raw : Dict NDArray} {state : State} {mul : String}
    {tr : Dict DataArray × Dict NDArray} (h : takeTracers g i raw state mul = .ok tr) :
    tr.1.keys.Nodup := by
  unfold takeTracers at h
  cases hp : i.packer with
  | none => rw [hp] at h; cases h; simp
  | some p =>
    rw [hp] at h
    obtain ⟨t, ht, h⟩ := Exc.bind_ok_iff.1 h
    obtain ⟨out, ho, h⟩ := Exc.bind_ok_iff.1 h
    cases h
    unfold Packer.unpack at ho
    obtain ⟨_, _, ho⟩ := Exc.bind_ok_iff.1 ho
    obtain ⟨_, _, ho⟩ := Exc.bind_ok_iff.1 ho
    exact restore_nodup ho

/-- `prepare` reads the instance only through its packer. -/
theorem prepare_congr {R : Registry} {g : Tracers} {c c' : Class} {i i' : Inst} {state : State}
    (hc : c.inProps = c'.inProps) (hp : i.packer = i'.packer) :
    prepare R g c i state = prepare R g c' i' state := by
  unfold prepare; rw [hc, hp]

theorem takeTracers_congr {g : Tracers} {i i' : Inst} {raw : Dict NDArray} {state : State} {mul : String}
    (hp : i.packer = i'.packer) : takeTracers g i raw state mul = takeTracers g i' raw state mul := by
  unfold takeTracers; rw [hp]

end Verif

import Verif.Spec.Wrappers
import Verif.Props.Aliases
import Verif.Props.Heap
/-!
# Lemmas about ScalingWrapper: the in-place code does what a value-level program does
-/

namespace Verif

/-- Value-level loop of the inputs. -/
def scaleInputsV (f : Dict Rat) (state : State) : List String → State → Except Err State
  | [], out => .ok out
  | k :: ks, out =>
    match Dict.get? state k with
    | none => .error .keyError
    | some v =>
      match f.get? k with
      | none => scaleInputsV f state ks (Dict.set out k v)
      | some c =>
        match v with
        | .time _ => .error .typeError
        | .da a => scaleInputsV f state ks (Dict.set out k (.da (a.scaled c)))

/-- Value-level loop of the outputs. -/
def scaleOutputsV : Dict Rat → State → Except Err State
  | [], d => .ok d
  | (k, c) :: rest, d =>
    match Dict.get? d k with
    | none => .error .keyError
    | some (.time _) => .error .typeError
    | some (.da a) => scaleOutputsV rest (Dict.set d k (.da (a.scaled c)))

section
variable {σ : Type}

theorem WMem.at_alloc_lt (m : WMem σ) (a : DataArray) {l : Nat} (h : l < m.arrays.length) :
    (m.alloc a).1.at' l = m.at' l := by
  simp [WMem.alloc, WMem.at', List.getElem?_append_left h]

theorem WMem.at_alloc (m : WMem σ) (a : DataArray) : (m.alloc a).1.at' (m.alloc a).2 = a := by
  simp [WMem.alloc, WMem.at']

theorem WMem.at_write (m : WMem σ) {l : Nat} (a : DataArray) (h : l < m.arrays.length) :
    (m.write l a).at' l = a := by
  simp [WMem.write, WMem.at', h]

theorem WMem.at_write_ne (m : WMem σ) {l l' : Nat} (a : DataArray) (h : l' ≠ l) :
    (m.write l a).at' l' = m.at' l' := by
  simp [WMem.write, WMem.at', List.getElem?_set_ne (Ne.symm h)]

/-- `m'` is `m` with more arrays. -/
def WMem.Extends (m m' : WMem σ) : Prop := ∃ more, m'.arrays = m.arrays ++ more

theorem WMem.Extends.refl (m : WMem σ) : m.Extends m := ⟨[], by simp⟩

theorem WMem.Extends.trans {m m' m'' : WMem σ} (h : m.Extends m') (h' : m'.Extends m'') : m.Extends m'' := by
  obtain ⟨a, ha⟩ := h
  obtain ⟨b, hb⟩ := h'
  exact ⟨a ++ b, by rw [hb, ha, List.append_assoc]⟩

theorem WMem.Extends.at {m m' : WMem σ} (h : m.Extends m') {l : Nat} (hl : l < m.arrays.length) :
    m'.at' l = m.at' l := by
  obtain ⟨a, ha⟩ := h
  simp [WMem.at', ha, List.getElem?_append_left hl]

theorem WMem.Extends.length {m m' : WMem σ} (h : m.Extends m') : m.arrays.length ≤ m'.arrays.length := by
  obtain ⟨a, ha⟩ := h
  simp [ha]

theorem WMem.alloc_extends (m : WMem σ) (a : DataArray) : m.Extends (m.alloc a).1 := ⟨[a], rfl⟩

theorem WMem.Extends.vals {m m' : WMem σ} (h : m.Extends m') {d : RState} (hd : Valid m d) :
    m'.vals d = m.vals d := by
  apply mapVal_congr
  intro kv hkv
  cases hv : kv.2 with
  | time t => rfl
  | ref l => simp only [WMem.val, h.at (hd kv hkv l hv)]

theorem Valid.mono {m m' : WMem σ} (h : m.Extends m') {d : RState} (hd : Valid m d) : Valid m' d :=
  fun kv hkv l hl => Nat.lt_of_lt_of_le (hd kv hkv l hl) h.length

theorem Valid.set {m : WMem σ} {d : RState} (hd : Valid m d) (k : String) {v : RVal}
    (hv : ∀ l, v = .ref l → l < m.arrays.length) : Valid m (Dict.set d k v) := by
  intro kv hkv l hl
  rcases Dict.mem_set hkv with h | h
  · exact hd kv h l hl
  · subst h; exact hv l hl

theorem Valid.get {m : WMem σ} {d : RState} (hd : Valid m d) {k : String} {l : Nat}
    (h : Dict.get? d k = some (.ref l)) : l < m.arrays.length :=
  hd _ (Dict.mem_of_get? h) l rfl

theorem vals_get? (m : WMem σ) (d : RState) (k : String) :
    Dict.get? (m.vals d) k = (Dict.get? d k).map m.val := Dict.get?_mapVal _ _ _

theorem vals_set (m : WMem σ) (d : RState) (k : String) (v : RVal) :
    m.vals (Dict.set d k v) = Dict.set (m.vals d) k (m.val v) := mapVal_set _ _ _ _

/-- The loop of the inputs: only new arrays, and the values are those of the
value-level loop. -/
theorem scaleInputs_refines (f : Dict Rat) (state : RState) (ks : List String) (m : WMem σ) (out : RState)
    (hs : Valid m state) (ho : Valid m out) :
    m.Extends (scaleInputs f state ks m out).1 ∧ (scaleInputs f state ks m out).1.world = m.world ∧
    (∀ e, (scaleInputs f state ks m out).2 = .error e →
      scaleInputsV f (m.vals state) ks (m.vals out) = .error e) ∧
    ∀ s1, (scaleInputs f state ks m out).2 = .ok s1 → Valid (scaleInputs f state ks m out).1 s1 ∧
      scaleInputsV f (m.vals state) ks (m.vals out) = .ok ((scaleInputs f state ks m out).1.vals s1) := by
  induction ks generalizing m out with
  | nil =>
    refine ⟨.refl m, rfl, fun e h => (by cases h), ?_⟩
    intro s1 h
    injection h with h
    subst h
    exact ⟨ho, rfl⟩
  | cons k ks ih =>
    unfold scaleInputs scaleInputsV
    rw [vals_get?]
    cases hg : Dict.get? state k with
    | none =>
      refine ⟨.refl m, rfl, fun e h => ?_, fun s1 h => (by cases h)⟩
      injection h with h
      subst h
      rfl
    | some v =>
      cases hf : f.get? k with
      | none =>
        have := ih m (Dict.set out k v) hs (ho.set k (fun l hl => by subst hl; exact hs.get hg))
        rw [vals_set] at this
        exact this
      | some c =>
        cases v with
        | time t =>
          refine ⟨.refl m, rfl, fun e h => ?_, fun s1 h => (by cases h)⟩
          injection h with h
          subst h
          rfl
        | ref l =>
          have hext := m.alloc_extends ((m.at' l).scaled c)
          have := ih (m.alloc ((m.at' l).scaled c)).1 (Dict.set out k (.ref (m.alloc ((m.at' l).scaled c)).2))
            (hs.mono hext) ((ho.mono hext).set k (fun l' hl' => by
              injection hl' with hl'
              subst hl'
              simp [WMem.alloc]))
          rw [vals_set, hext.vals hs, hext.vals ho] at this
          obtain ⟨h1, h2, h3, h4⟩ := this
          have hv : (m.alloc ((m.at' l).scaled c)).1.val (.ref (m.alloc ((m.at' l).scaled c)).2) =
              .da ((m.at' l).scaled c) := by
            simp only [WMem.val, m.at_alloc]
          rw [hv] at h3 h4
          exact ⟨hext.trans h1, h2, h3, h4⟩

theorem unshared_ne {d : RState} (hd : Unshared d) {k k' : String} {l : Nat} (hk : k ≠ k')
    (h : Dict.get? d k = some (.ref l)) (hm : (k', RVal.ref l) ∈ d) : False := by
  induction d with
  | nil => simp at hm
  | cons kv d ih =>
    obtain ⟨k0, v0⟩ := kv
    unfold Unshared at hd
    rw [List.pairwise_cons] at hd
    rw [Dict.get?_cons] at h
    by_cases h0 : k0 = k
    · subst h0
      simp only [if_true] at h
      injection h with h
      subst h
      rcases List.mem_cons.1 hm with hm | hm
      · injection hm with h1 h2
        exact hk h1.symm
      · exact hd.1 _ hm l rfl rfl
    · rw [if_neg h0] at h
      rcases List.mem_cons.1 hm with hm | hm
      · injection hm with h1 h2
        exact hd.1 _ (Dict.mem_of_get? h) l h2.symm rfl
      · exact ih hd.2 h hm

/-- Changing the array of a key changes that key only. -/
theorem vals_write {m : WMem σ} {d : RState} (hd : Unshared d) (hv : Valid m d) (hn : (Dict.keys d).Nodup)
    {k : String} {l : Nat} (h : Dict.get? d k = some (.ref l)) (a : DataArray) :
    (m.write l a).vals d = Dict.set (m.vals d) k (.da a) := by
  have hset : d = Dict.set d k (.ref l) := (Dict.set_eq_self h).symm
  have hl := hv.get h
  conv_lhs => rw [hset]
  rw [vals_set]
  have : (m.write l a).val (.ref l) = .da a := by simp only [WMem.val, m.at_write a hl]
  rw [this]
  clear hset this
  -- away from `k` the values agree
  have key : ∀ kv ∈ d, kv.1 ≠ k → (m.write l a).val kv.2 = m.val kv.2 := by
    intro kv hkv hne
    cases hkv2 : kv.2 with
    | time t => rfl
    | ref l' =>
      simp only [WMem.val]
      rw [m.at_write_ne]
      rintro rfl
      exact unshared_ne hd (Ne.symm hne) h (by rw [← hkv2]; exact hkv)
  clear hd hv h
  unfold WMem.vals Dict.mapVal
  induction d with
  | nil => rfl
  | cons kv d ih =>
    obtain ⟨k0, v0⟩ := kv
    simp only [Dict.keys, List.map_cons, List.nodup_cons] at hn
    simp only [List.map_cons]
    unfold Dict.set
    by_cases h0 : k0 = k
    · subst h0
      rw [if_pos rfl, if_pos rfl]
      congr 1
      apply List.map_congr_left
      intro kv hkv
      rw [key kv (List.mem_cons_of_mem _ hkv) ?_]
      rintro he
      exact hn.1 (by rw [← he]; exact List.mem_map_of_mem hkv)
    · rw [if_neg h0, if_neg h0, key (k0, v0) (by simp) h0]
      congr 1
      exact ih hn.2 (fun kv hkv => key kv (List.mem_cons_of_mem _ hkv))

/-- No array object of `d` is one of `d2`. -/
def Disjoint' (d d2 : RState) : Prop := ∀ kv ∈ d, ∀ kv2 ∈ d2, ∀ l, kv.2 = .ref l → kv2.2 ≠ .ref l

theorem vals_write_other {m : WMem σ} {d d2 : RState} (h2 : Disjoint' d d2) {k : String} {l : Nat}
    (h : Dict.get? d k = some (.ref l)) (a : DataArray) : (m.write l a).vals d2 = m.vals d2 := by
  apply mapVal_congr
  intro kv hkv
  cases hkv2 : kv.2 with
  | time t => rfl
  | ref l' =>
    simp only [WMem.val]
    rw [m.at_write_ne]
    rintro rfl
    exact h2 _ (Dict.mem_of_get? h) kv hkv l' rfl hkv2

/-- A loop over the outputs changes the arrays of that dictionary only. -/
theorem scaleOutputs_refines (f : Dict Rat) (m : WMem σ) {d : RState} (hd : Unshared d) (hv : Valid m d)
    (hn : (Dict.keys d).Nodup) :
    (scaleOutputs f m d).1.world = m.world ∧
    (scaleOutputs f m d).1.arrays.length = m.arrays.length ∧
    (∀ d2, Disjoint' d d2 → (scaleOutputs f m d).1.vals d2 = m.vals d2) ∧
    (∀ e, (scaleOutputs f m d).2 = .error e → scaleOutputsV f (m.vals d) = .error e) ∧
    ((scaleOutputs f m d).2 = .ok () → scaleOutputsV f (m.vals d) = .ok ((scaleOutputs f m d).1.vals d)) := by
  induction f generalizing m with
  | nil => exact ⟨rfl, rfl, fun _ _ => rfl, fun e h => (by cases h), fun _ => rfl⟩
  | cons kc f ih =>
    obtain ⟨k, c⟩ := kc
    unfold scaleOutputs scaleOutputsV
    rw [vals_get?]
    cases hg : Dict.get? d k with
    | none =>
      refine ⟨rfl, rfl, fun _ _ => rfl, fun e h => ?_, fun h => (by cases h)⟩
      injection h with h
      subst h
      rfl
    | some v =>
      cases v with
      | time t =>
        refine ⟨rfl, rfl, fun _ _ => rfl, fun e h => ?_, fun h => (by cases h)⟩
        injection h with h
        subst h
        rfl
      | ref l =>
        have hlen : (m.write l ((m.at' l).scaled c)).arrays.length = m.arrays.length := by
          simp [WMem.write]
        obtain ⟨h1, h2, h3, h4, h5⟩ := ih (m.write l ((m.at' l).scaled c))
          (fun kv hkv l' hl' => by rw [hlen]; exact hv kv hkv l' hl')
        rw [vals_write hd hv hn hg] at h4 h5
        refine ⟨h1, h2.trans hlen, fun d2 hd2 => ?_, h4, h5⟩
        rw [← vals_write_other (m := m) hd2 hg ((m.at' l).scaled c)]
        exact h3 d2 hd2

end

theorem isScaledBy_scaled (a : DataArray) (c : Rat) : IsScaledBy c a (a.scaled c) :=
  ⟨rfl, rfl, rfl, fun _ => rfl⟩

/-- The value-level loop multiplies exactly the named entries. -/
theorem scaleOutputsV_spec (f : Dict Rat) (hf : f.keys.Nodup) (d d' : State)
    (h : scaleOutputsV f d = .ok d') : ScaledDict f d d' := by
  induction f generalizing d with
  | nil =>
    injection h with h
    subst h
    exact ⟨rfl, fun k hk => (by cases hk), fun k x hx => ⟨x, hx, rfl⟩⟩
  | cons kc f ih =>
    obtain ⟨k, c⟩ := kc
    simp only [Dict.keys, List.map_cons, List.nodup_cons] at hf
    unfold scaleOutputsV at h
    cases hg : Dict.get? d k with
    | none => rw [hg] at h; cases h
    | some v =>
      rw [hg] at h
      cases v with
      | time t => cases h
      | da a =>
        dsimp only at h
        obtain ⟨h1, h2, h3⟩ := ih hf.2 _ h
        have hkd : k ∈ Dict.keys d := Dict.mem_keys_of_get? hg
        have hkeys : Dict.keys (Dict.set d k (Val.da (a.scaled c))) = Dict.keys d := by
          rw [Dict.keys_set, if_pos hkd]
        refine ⟨h1.trans hkeys, ?_, ?_⟩
        · intro q hq
          rcases List.mem_cons.1 hq with rfl | hq
          · exact hkd
          · rw [← hkeys]; exact h2 q hq
        · intro q x hx
          by_cases hq : k = q
          · subst hq
            rw [hg] at hx
            injection hx with hx
            subst hx
            obtain ⟨y, hy1, hy2⟩ := h3 k _ (Dict.get?_set_self _ _ _)
            refine ⟨y, hy1, ?_⟩
            have hn : Dict.get? f k = none := (Dict.get?_eq_none_iff _ _).2 hf.1
            rw [hn] at hy2
            dsimp only [ScaledEntry] at hy2
            subst hy2
            rw [Dict.get?_cons, if_pos rfl]
            exact isScaledBy_scaled a c
          · obtain ⟨y, hy1, hy2⟩ := h3 q x (by rw [Dict.get?_set_ne _ _ hq]; exact hx)
            exact ⟨y, hy1, by rw [Dict.get?_cons, if_neg hq]; exact hy2⟩

/-- The value-level loop of the inputs. -/
theorem scaleInputsV_spec (f : Dict Rat) (state : State) (ks : List String) (out s1 : State)
    (h : scaleInputsV f state ks out = .ok s1) :
    (∀ k, k ∈ Dict.keys s1 ↔ k ∈ ks ∨ k ∈ Dict.keys out) ∧
    (∀ k ∈ ks, ∃ x y, Dict.get? state k = some x ∧ Dict.get? s1 k = some y ∧ ScaledEntry (f.get? k) x y) ∧
    ∀ k, k ∉ ks → Dict.get? s1 k = Dict.get? out k := by
  induction ks generalizing out with
  | nil =>
    injection h with h
    subst h
    exact ⟨by simp, by simp, fun _ _ => rfl⟩
  | cons k ks ih =>
    unfold scaleInputsV at h
    cases hg : Dict.get? state k with
    | none => rw [hg] at h; cases h
    | some v =>
      rw [hg] at h
      -- the value put under `k`
      have main : ∀ w, ScaledEntry (f.get? k) v w → scaleInputsV f state ks (Dict.set out k w) = .ok s1 →
          (∀ q, q ∈ Dict.keys s1 ↔ q ∈ k :: ks ∨ q ∈ Dict.keys out) ∧
          (∀ q ∈ k :: ks, ∃ x y, Dict.get? state q = some x ∧ Dict.get? s1 q = some y ∧
            ScaledEntry (f.get? q) x y) ∧
          ∀ q, q ∉ k :: ks → Dict.get? s1 q = Dict.get? out q := by
        intro w hw h
        obtain ⟨h1, h2, h3⟩ := ih _ h
        refine ⟨?_, ?_, ?_⟩
        · intro q
          rw [h1, Dict.mem_keys_set, List.mem_cons]
          constructor
          · rintro (h | h | h)
            · exact Or.inl (Or.inr h)
            · exact Or.inl (Or.inl h)
            · exact Or.inr h
          · rintro ((h | h) | h)
            · exact Or.inr (Or.inl h)
            · exact Or.inl h
            · exact Or.inr (Or.inr h)
        · intro q hq
          by_cases hqs : q ∈ ks
          · exact h2 q hqs
          · rcases List.mem_cons.1 hq with rfl | hq
            · exact ⟨v, w, hg, by rw [h3 q hqs, Dict.get?_set_self], hw⟩
            · exact absurd hq hqs
        · intro q hq
          simp only [List.mem_cons, not_or] at hq
          rw [h3 q hq.2, Dict.get?_set_ne _ _ (Ne.symm hq.1)]
      cases hf : f.get? k with
      | none =>
        rw [hf] at h
        exact main v (by rw [hf]; rfl) h
      | some c =>
        rw [hf] at h
        cases v with
        | time t => cases h
        | da a => exact main _ (by rw [hf]; exact isScaledBy_scaled a c) h

end Verif

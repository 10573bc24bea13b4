import Verif.Spec.Repr
/-!
# C83: the text of components
-/

namespace Verif

theorem SameMaking.refl (fl : Flags) : SameMaking fl fl := fun _ => Iff.rfl
theorem SameMaking.symm {a b : Flags} (h : SameMaking a b) : SameMaking b a := fun j => (h j).symm
theorem SameMaking.trans {a b c : Flags} (h : SameMaking a b) (h' : SameMaking b c) : SameMaking a c :=
  fun j => (h j).trans (h' j)

theorem SameMaking.put {a b : Flags} (h : SameMaking a b) (i : Nat) (x : Bool) :
    SameMaking (a.put i x) (b.put i x) := by
  intro j; by_cases hj : j = i <;> simp [Flags.put, hj, h j]

theorem making_true {h : List Thing} {fl : Flags} {i : Nat} (hm : making h fl i = false) : fl i ≠ some true := by
  intro hf
  unfold making at hm
  split at hm
  · next h1 h2 => rw [hf] at h2; cases h2
  · simp [hf] at hm

/-- A loop over pieces keeps what each of its calls keeps. -/
theorem printPieces_same {f : Nat → Flags → Option (Flags × Except Err String)}
    (hf : ∀ i fl fl' s, f i fl = some (fl', .ok s) → SameMaking fl fl') :
    ∀ (ps : List Piece) (fl fl' : Flags) (s : String), printPieces f ps fl = some (fl', .ok s) → SameMaking fl fl'
  | [], fl, fl', s, h => by simp [printPieces] at h; obtain ⟨rfl, _⟩ := h; exact .refl _
  | .fails e :: rest, fl, fl', s, h => by simp [printPieces] at h
  | .text t :: rest, fl, fl', s, h => by
    simp only [printPieces] at h
    split at h
    · next fl1 t1 h1 =>
      simp only [Option.some.injEq, Prod.mk.injEq] at h
      obtain ⟨rfl, _⟩ := h
      exact printPieces_same hf rest _ _ _ h1
    · next hne => exact absurd h (hne _ _)
  | .ref i :: rest, fl, fl', s, h => by
    simp only [printPieces] at h
    split at h
    · next fl1 t1 h1 =>
      split at h
      · next fl2 t2 h2 =>
        simp only [Option.some.injEq, Prod.mk.injEq] at h
        obtain ⟨rfl, _⟩ := h
        exact (hf _ _ _ _ h1).trans (printPieces_same hf rest _ _ _ h2)
      · next hne => exact absurd h (hne _ _)
    · next hne => exact absurd h (hne _ _)

/-- **C83 (part)** After a successful `repr` the same objects are being printed as before,
so none if it was called from outside. -/
theorem repr_leaves_no_flag (h : List Thing) : ∀ (n i : Nat) (fl fl' : Flags) (s : String),
    printObj h n i fl = some (fl', .ok s) → SameMaking fl fl'
  | 0, _, _, _, _, hp => by simp [printObj] at hp
  | n + 1, i, fl, fl', s, hp => by
    have hflag : ∀ cls attrs, printFlagged h (printObj h n) i cls attrs fl = some (fl', .ok s) → SameMaking fl fl' := by
      intro cls attrs hp
      unfold printFlagged at hp
      split at hp
      · simp only [Option.some.injEq, Prod.mk.injEq] at hp; obtain ⟨rfl, _⟩ := hp; exact .refl _
      · next hm =>
        have hm := making_true (by simpa using hm)
        split at hp
        · next fl1 t h1 =>
          simp only [Option.some.injEq, Prod.mk.injEq] at hp
          obtain ⟨rfl, _⟩ := hp
          have hs := printPieces_same (repr_leaves_no_flag h n) _ _ _ _ h1
          intro j
          have := hs j
          by_cases hj : j = i
          · subst hj; simp [Flags.put, hm]
          · simpa [Flags.put, hj] using this
        · next hne => exact absurd hp (hne _ _)
    unfold printObj at hp
    split at hp
    · simp only [Option.some.injEq, Prod.mk.injEq] at hp; obtain ⟨rfl, _⟩ := hp; exact .refl _
    · exact hflag _ _ hp
    · exact hflag _ _ hp
    · split at hp
      · next fl1 t h1 =>
        simp only [Option.some.injEq, Prod.mk.injEq] at hp
        obtain ⟨rfl, _⟩ := hp
        exact printPieces_same (repr_leaves_no_flag h n) _ _ _ _ h1
      · next hne => exact absurd hp (hne _ _)

/-! ## Termination -/

theorem length_filter_lt {α : Type} {p q : α → Bool} : ∀ {l : List α}, (∀ x ∈ l, p x = true → q x = true) →
    (∃ x ∈ l, q x = true ∧ p x = false) → (l.filter p).length < (l.filter q).length
  | [], _, ⟨_, hx, _⟩ => by cases hx
  | a :: l, himp, ⟨x, hx, hq, hp⟩ => by
    have hle : (l.filter p).length ≤ (l.filter q).length := by
      clear hx hq hp
      induction l with
      | nil => simp
      | cons b l ih =>
        have hb := himp b (by simp)
        have := ih (fun y hy => himp y (by
          rcases List.mem_cons.1 hy with rfl | hy
          · simp
          · simp [hy]))
        by_cases h1 : p b = true
        · simp [h1, hb h1, this]
        · by_cases h2 : q b = true
          · simp [h1, h2]; omega
          · simp [h1, h2, this]
    rcases List.mem_cons.1 hx with rfl | hx
    · simp [hq, hp]; omega
    · have hlt := length_filter_lt (p := p) (q := q) (l := l) (fun y hy => himp y (by simp [hy])) ⟨x, hx, hq, hp⟩
      have ha := himp a (by simp)
      by_cases h1 : p a = true
      · simp [h1, ha h1, hlt]
      · by_cases h2 : q a = true
        · simp [h1, h2]; omega
        · simp [h1, h2, hlt]

theorem idle_put {h : List Thing} {fl : Flags} {i : Nat} (hi : i < h.length) (hf : fl i ≠ some true) :
    idle h (fl.put i true) < idle h fl := by
  unfold idle
  apply length_filter_lt
  · intro j _ hj
    by_cases hji : j = i
    · simp [Flags.put, hji] at hj
    · simpa [Flags.put, hji] using hj
  · exact ⟨i, List.mem_range.2 hi, by simp [hf], by simp [Flags.put]⟩

theorem idle_same {h : List Thing} {fl fl' : Flags} (hs : SameMaking fl fl') : idle h fl = idle h fl' := by
  unfold idle
  congr 1
  apply List.filter_congr
  intro j _
  have := hs j
  by_cases hj : fl j = some true <;> simp_all

theorem mem_joinPieces {sep : String} {p : Piece} : ∀ {l : List (List Piece)}, p ∈ joinPieces sep l →
    p = .text sep ∨ ∃ x ∈ l, p ∈ x
  | [], h => by simp [joinPieces] at h
  | [x], h => .inr ⟨x, by simp, by simpa [joinPieces] using h⟩
  | x :: y :: rest, h => by
    simp only [joinPieces, List.mem_append, List.mem_cons] at h
    rcases h with h | h | h
    · exact .inr ⟨x, by simp, h⟩
    · exact .inl h
    · rcases mem_joinPieces h with h | ⟨z, hz, h⟩
      · exact .inl h
      · exact .inr ⟨z, by simp [hz], h⟩

theorem mem_partPieces {parts : List Nat} {j : Nat} (h : Piece.ref j ∈ partPieces parts) : j ∈ parts := by
  rcases mem_joinPieces h with h | ⟨x, hx, h⟩
  · cases h
  · obtain ⟨k, hk, rfl⟩ := List.mem_map.1 hx
    simp only [List.mem_singleton, Piece.ref.injEq] at h
    exact h ▸ hk

theorem printPieces_some {f : Nat → Flags → Option (Flags × Except Err String)} :
    ∀ {ps : List Piece} {fl0 fl : Flags}, SameMaking fl0 fl →
    (∀ i fl fl' s, f i fl = some (fl', .ok s) → SameMaking fl fl') →
    (∀ j fl', Piece.ref j ∈ ps → SameMaking fl0 fl' → (f j fl').isSome) → (printPieces f ps fl).isSome
  | [], fl0, fl, _, _, _ => by simp [printPieces]
  | .fails e :: rest, fl0, fl, _, _, _ => by simp [printPieces]
  | .text s :: rest, fl0, fl, hs, hf, hsome => by
    have ih := printPieces_some (ps := rest) hs hf (fun j fl' hj => hsome j fl' (by simp [hj]))
    simp only [printPieces]
    split
    · rfl
    · exact ih
  | .ref i :: rest, fl0, fl, hs, hf, hsome => by
    have hi := hsome i fl (by simp) hs
    simp only [printPieces]
    split
    · next fl1 t h1 =>
      have ih := printPieces_some (ps := rest) (hs.trans (hf _ _ _ _ h1)) hf (fun j fl' hj => hsome j fl' (by simp [hj]))
      split
      · rfl
      · exact ih
    · exact hi

/-- The steps to an object that is printed at once: composites are inside of composites only
in decreasing order. -/
def depthOf (h : List Thing) (i : Nat) : Nat :=
  match h[i]? with
  | some (.composite _ _) => i + 1
  | _ => 0

theorem depthOf_le (h : List Thing) (i : Nat) : depthOf h i ≤ h.length := by
  unfold depthOf
  split
  · next hi => exact (List.getElem?_eq_some_iff.1 hi).1
  · exact Nat.zero_le _

theorem printObj_some {h : List Thing} (ho : Ordered h) : ∀ (n i : Nat) (fl : Flags),
    idle h fl * (h.length + 1) + depthOf h i < n → (printObj h n i fl).isSome
  | 0, _, _, hn => by omega
  | n + 1, i, fl, hn => by
    have hkeep := repr_leaves_no_flag h n
    have hflag : ∀ cls attrs, i < h.length → (printFlagged h (printObj h n) i cls attrs fl).isSome := by
      intro cls attrs hi
      unfold printFlagged
      split
      · rfl
      · next hm =>
        have hlt := idle_put hi (making_true (by simpa using hm))
        have := printPieces_some (f := printObj h n) (ps := attrPieces attrs) (.refl (fl.put i true)) hkeep (by
          intro j fl' _ hs
          apply printObj_some ho
          rw [← idle_same hs]
          have hd := depthOf_le h j
          have := Nat.mul_le_mul_right (h.length + 1) (Nat.succ_le_of_lt hlt)
          rw [Nat.succ_mul] at this
          omega)
        split
        · rfl
        · exact this
    unfold printObj
    split
    · rfl
    · next hi => exact hflag _ _ (List.getElem?_eq_some_iff.1 hi).1
    · next hi => exact hflag _ _ (List.getElem?_eq_some_iff.1 hi).1
    · next cls parts hi =>
      have := printPieces_some (f := printObj h n) (ps := partPieces parts) (.refl fl) hkeep (by
        intro j fl' hj hs
        apply printObj_some ho
        rw [← idle_same hs]
        have hji := ho _ _ _ hi _ (mem_partPieces hj)
        have h1 : depthOf h i = i + 1 := by simp [depthOf, hi]
        have h2 : depthOf h j ≤ j + 1 := by unfold depthOf; split <;> omega
        omega)
      split
      · rfl
      · exact this

/-- **C83 (part)** `repr` ends: attributes may refer to anything, also to the object itself,
and the calls inside one another are at most about the square of the number of objects. -/
theorem repr_terminates (h : List Thing) (ho : Ordered h) (i : Nat) (fl : Flags) :
    (printObj h ((h.length + 1) * (h.length + 1)) i fl).isSome := by
  apply printObj_some ho
  have h1 : idle h fl ≤ h.length := by
    unfold idle
    exact Nat.le_trans (List.length_filter_le _ _) (by simp)
  have := Nat.mul_le_mul_right (h.length + 1) h1
  have := depthOf_le h i
  rw [Nat.succ_mul]
  omega

/-- The result does not depend on the limit once it is enough. -/
theorem printPieces_mono {f g : Nat → Flags → Option (Flags × Except Err String)}
    (hfg : ∀ i fl r, f i fl = some r → g i fl = some r) : ∀ (ps : List Piece) (fl : Flags) (r),
    printPieces f ps fl = some r → printPieces g ps fl = some r
  | [], fl, r, h => h
  | .fails e :: rest, fl, r, h => h
  | .text s :: rest, fl, r, h => by
    simp only [printPieces] at h ⊢
    rcases hr : printPieces f rest fl with _ | ⟨fl1, r1⟩
    · simp [hr] at h
    · rw [printPieces_mono hfg rest fl _ hr]
      simpa [hr] using h
  | .ref i :: rest, fl, r, h => by
    simp only [printPieces] at h ⊢
    rcases hr : f i fl with _ | ⟨fl1, r1⟩
    · simp [hr] at h
    · rw [hfg _ _ _ hr]
      rcases r1 with e | s
      · simpa [hr] using h
      · simp only [hr] at h ⊢
        rcases hr2 : printPieces f rest fl1 with _ | ⟨fl2, r2⟩
        · simp [hr2] at h
        · rw [printPieces_mono hfg rest fl1 _ hr2]
          simpa [hr2] using h

theorem printObj_mono (h : List Thing) : ∀ (n m i : Nat) (fl : Flags) (r), n ≤ m →
    printObj h n i fl = some r → printObj h m i fl = some r
  | 0, _, _, _, _, _, hp => by simp [printObj] at hp
  | n + 1, 0, _, _, _, hnm, _ => by omega
  | n + 1, m + 1, i, fl, r, hnm, hp => by
    have hfg : ∀ i fl r, printObj h n i fl = some r → printObj h m i fl = some r :=
      fun i fl r => printObj_mono h n m i fl r (by omega)
    have hflag : ∀ cls attrs, printFlagged h (printObj h n) i cls attrs fl = some r →
        printFlagged h (printObj h m) i cls attrs fl = some r := by
      intro cls attrs hp
      unfold printFlagged at hp ⊢
      split at hp
      · next hm => rw [if_pos hm]; exact hp
      · next hm =>
        rw [if_neg hm]
        rcases hr : printPieces (printObj h n) (attrPieces attrs) (fl.put i true) with _ | ⟨fl1, r1⟩
        · simp [hr] at hp
        · rw [printPieces_mono hfg _ _ _ hr]
          simpa [hr] using hp
    unfold printObj at hp ⊢
    split at hp
    · next hi => simpa [hi] using hp
    · next hi => simpa [hi] using hflag _ _ hp
    · next hi => simpa [hi] using hflag _ _ hp
    · next cls parts hi =>
      rcases hr : printPieces (printObj h n) (partPieces parts) fl with _ | ⟨fl1, r1⟩
      · simp [hr] at hp
      · rw [printPieces_mono hfg _ _ _ hr]
        simpa [hr] using hp

/-- A composite inside of itself (its `component_list` replaced after it was made) cannot be
printed: composites have no `_making_repr`. -/
theorem composite_in_itself (h : List Thing) (i : Nat) (cls : String) (parts : List Nat)
    (hi : h[i]? = some (.composite cls (i :: parts))) : ∀ (n : Nat) (fl : Flags), printObj h n i fl = none
  | 0, _ => rfl
  | n + 1, fl => by
    have ih := composite_in_itself h i cls parts hi n
    unfold printObj
    simp only [hi]
    have : ∀ fl, printPieces (printObj h n) (partPieces (i :: parts)) fl = none := by
      intro fl
      cases parts <;> simp [partPieces, joinPieces, printPieces, ih]
    simp [this]

/-! ## The text -/

mutual
/-- The description determines the text. -/
theorem Shows.unique {h : List Thing} {path : List Nat} {i : Nat} {s s' : String} :
    Shows h path i s → Shows h path i s' → s = s'
  | .missing h1, .missing _ => rfl
  | .missing h1, .again h2 _ => by rw [h1] at h2; cases h2
  | .missing h1, .full h2 _ _ => by rw [h1] at h2; cases h2
  | .missing h1, .parts h2 _ => by rw [h1] at h2; cases h2
  | .again h1 _, .missing h2 => by rw [h1] at h2; cases h2
  | .again h1 _, .again h2 _ => by rw [h1] at h2; cases h2; rfl
  | .again _ h1, .full _ h2 _ => absurd h1 h2
  | .again h1 _, .parts h2 _ => by rw [h1] at h2; cases h2
  | .full h1 _ _, .missing h2 => by rw [h1] at h2; cases h2
  | .full _ h1 _, .again _ h2 => absurd h2 h1
  | .full h1 _ p1, .full h2 _ p2 => by
    rw [h1] at h2; cases h2
    rw [ShowsPieces.unique p1 p2]
  | .full h1 _ _, .parts h2 _ => by rw [h1] at h2; cases h2
  | .parts h1 _, .missing h2 => by rw [h1] at h2; cases h2
  | .parts h1 _, .again h2 _ => by rw [h1] at h2; cases h2
  | .parts h1 _, .full h2 _ _ => by rw [h1] at h2; cases h2
  | .parts h1 p1, .parts h2 p2 => by
    rw [h1] at h2; cases h2
    rw [ShowsPieces.unique p1 p2]

theorem ShowsPieces.unique {h : List Thing} {path : List Nat} {ps : List Piece} {s s' : String} :
    ShowsPieces h path ps s → ShowsPieces h path ps s' → s = s'
  | .nil, .nil => rfl
  | .text p1, .text p2 => by rw [ShowsPieces.unique p1 p2]
  | .ref a1 p1, .ref a2 p2 => by rw [Shows.unique a1 a2, ShowsPieces.unique p1 p2]
end

theorem printPieces_shows {h : List Thing} {f : Nat → Flags → Option (Flags × Except Err String)} {path : List Nat}
    (hkeep : ∀ i fl fl' s, f i fl = some (fl', .ok s) → SameMaking fl fl')
    (hf : ∀ i fl fl' s, (∀ j, fl j = some true ↔ j ∈ path) → f i fl = some (fl', .ok s) → Shows h path i s) :
    ∀ (ps : List Piece) (fl fl' : Flags) (s : String), (∀ j, fl j = some true ↔ j ∈ path) →
    printPieces f ps fl = some (fl', .ok s) → ShowsPieces h path ps s
  | [], fl, fl', s, _, hp => by
    simp [printPieces] at hp; obtain ⟨_, rfl⟩ := hp; exact .nil
  | .fails e :: rest, fl, fl', s, _, hp => by simp [printPieces] at hp
  | .text t :: rest, fl, fl', s, hpath, hp => by
    simp only [printPieces] at hp
    split at hp
    · next fl1 t1 h1 =>
      simp only [Option.some.injEq, Prod.mk.injEq, Except.ok.injEq] at hp
      obtain ⟨_, rfl⟩ := hp
      exact .text (printPieces_shows hkeep hf rest _ _ _ hpath h1)
    · next hne => exact absurd hp (hne _ _)
  | .ref i :: rest, fl, fl', s, hpath, hp => by
    simp only [printPieces] at hp
    split at hp
    · next fl1 t1 h1 =>
      split at hp
      · next fl2 t2 h2 =>
        simp only [Option.some.injEq, Prod.mk.injEq, Except.ok.injEq] at hp
        obtain ⟨_, rfl⟩ := hp
        have hs := hkeep _ _ _ _ h1
        exact .ref (hf _ _ _ _ hpath h1)
          (printPieces_shows hkeep hf rest _ _ _ (fun j => (hs j).symm.trans (hpath j)) h2)
      · next hne => exact absurd hp (hne _ _)
    · next hne => exact absurd hp (hne _ _)

theorem making_component {h : List Thing} (hw : NoWrappers h) (fl : Flags) (i : Nat) :
    making h fl i = (fl i == some true) := by
  unfold making
  split
  · next h1 _ => exact absurd h1 (hw _ _ _ _)
  · rfl

/-- **C83 (part)** The text is the one described: every object in full, except inside of
itself. -/
theorem repr_text_partial (h : List Thing) (hw : NoWrappers h) : ∀ (n i : Nat) (path : List Nat) (fl fl' : Flags)
    (s : String), (∀ j, fl j = some true ↔ j ∈ path) → printObj h n i fl = some (fl', .ok s) → Shows h path i s
  | 0, _, _, _, _, _, _, hp => by simp [printObj] at hp
  | n + 1, i, path, fl, fl', s, hpath, hp => by
    unfold printObj at hp
    split at hp
    · next hi =>
      simp only [Option.some.injEq, Prod.mk.injEq, Except.ok.injEq] at hp
      obtain ⟨_, rfl⟩ := hp
      exact .missing hi
    · next cls attrs hi =>
      unfold printFlagged at hp
      rw [making_component hw] at hp
      split at hp
      · next hm =>
        simp only [Option.some.injEq, Prod.mk.injEq, Except.ok.injEq] at hp
        obtain ⟨_, rfl⟩ := hp
        exact .again hi ((hpath i).1 (by simpa using hm))
      · next hm =>
        have hm : i ∉ path := fun hc => hm (by simpa using (hpath i).2 hc)
        split at hp
        · next fl1 t h1 =>
          simp only [Option.some.injEq, Prod.mk.injEq, Except.ok.injEq] at hp
          obtain ⟨_, rfl⟩ := hp
          refine .full hi hm (printPieces_shows (repr_leaves_no_flag h n)
            (fun j a b s' hp' => repr_text_partial h hw n j (i :: path) a b s' hp') _ _ _ _ ?_ h1)
          intro j
          by_cases hj : j = i
          · simp [Flags.put, hj]
          · simp [Flags.put, hj, hpath j]
        · next hne => exact absurd hp (hne _ _)
    · next hi => exact absurd hi (hw _ _ _ _)
    · next cls parts hi =>
      split at hp
      · next fl1 t h1 =>
        simp only [Option.some.injEq, Prod.mk.injEq, Except.ok.injEq] at hp
        obtain ⟨_, rfl⟩ := hp
        exact .parts hi (printPieces_shows (repr_leaves_no_flag h n)
          (fun j a b s' hp' => repr_text_partial h hw n j path a b s' hp') _ _ _ _ hpath h1)
      · next hne => exact absurd hp (hne _ _)

/-! ## Printing twice -/

/-- Results that agree, with the same objects being printed. -/
def SameOutcome : Option (Flags × Except Err String) → Option (Flags × Except Err String) → Prop
  | none, none => True
  | some (a, r), some (b, r') => SameMaking a b ∧ r = r'
  | _, _ => False

theorem printPieces_outcome {f : Nat → Flags → Option (Flags × Except Err String)}
    (hf : ∀ i a b, SameMaking a b → SameOutcome (f i a) (f i b)) : ∀ (ps : List Piece) (a b : Flags), SameMaking a b →
    SameOutcome (printPieces f ps a) (printPieces f ps b)
  | [], a, b, hs => ⟨hs, rfl⟩
  | .fails e :: rest, a, b, hs => ⟨hs, rfl⟩
  | .text s :: rest, a, b, hs => by
    have ih := printPieces_outcome hf rest a b hs
    simp only [printPieces]
    rcases ha : printPieces f rest a with _ | ⟨a1, ra⟩ <;> rcases hb : printPieces f rest b with _ | ⟨b1, rb⟩ <;>
      rw [ha, hb] at ih
    · exact ih
    · exact ih.elim
    · exact ih.elim
    · obtain ⟨h1, rfl⟩ := ih
      cases ra
      · exact ⟨h1, rfl⟩
      · exact ⟨h1, rfl⟩
  | .ref i :: rest, a, b, hs => by
    have hi := hf i a b hs
    simp only [printPieces]
    rcases ha : f i a with _ | ⟨a1, ra⟩ <;> rcases hb : f i b with _ | ⟨b1, rb⟩ <;> rw [ha, hb] at hi
    · exact hi
    · exact hi.elim
    · exact hi.elim
    · obtain ⟨h1, rfl⟩ := hi
      rcases ra with e | s
      · exact ⟨h1, rfl⟩
      · have ih := printPieces_outcome hf rest a1 b1 h1
        dsimp only
        rcases ha2 : printPieces f rest a1 with _ | ⟨a2, ra2⟩ <;>
          rcases hb2 : printPieces f rest b1 with _ | ⟨b2, rb2⟩ <;> rw [ha2, hb2] at ih
        · exact ih
        · exact ih.elim
        · exact ih.elim
        · obtain ⟨h2, rfl⟩ := ih
          cases ra2
          · exact ⟨h2, rfl⟩
          · exact ⟨h2, rfl⟩

theorem printObj_outcome {h : List Thing} (hw : NoWrappers h) : ∀ (n i : Nat) (a b : Flags), SameMaking a b →
    SameOutcome (printObj h n i a) (printObj h n i b)
  | 0, _, _, _, _ => trivial
  | n + 1, i, a, b, hs => by
    have ih := printObj_outcome hw n
    unfold printObj
    split
    · exact ⟨hs, rfl⟩
    · next cls attrs hi =>
      unfold printFlagged
      rw [making_component hw, making_component hw]
      have hab : (a i == some true) = (b i == some true) := by
        rw [Bool.eq_iff_iff]; simpa using hs i
      rw [hab]
      split
      · exact ⟨hs, rfl⟩
      · have hp := printPieces_outcome ih (attrPieces attrs) _ _ (hs.put i true)
        rcases ha2 : printPieces (printObj h n) (attrPieces attrs) (a.put i true) with _ | ⟨a2, ra2⟩ <;>
          rcases hb2 : printPieces (printObj h n) (attrPieces attrs) (b.put i true) with _ | ⟨b2, rb2⟩ <;>
          rw [ha2, hb2] at hp
        · exact hp
        · exact hp.elim
        · exact hp.elim
        · obtain ⟨h2, rfl⟩ := hp
          cases ra2
          · exact ⟨h2, rfl⟩
          · exact ⟨h2.put i false, rfl⟩
    · next hi => exact absurd hi (hw _ _ _ _)
    · next cls parts hi =>
      have hp := printPieces_outcome ih (partPieces parts) _ _ hs
      rcases ha2 : printPieces (printObj h n) (partPieces parts) a with _ | ⟨a2, ra2⟩ <;>
        rcases hb2 : printPieces (printObj h n) (partPieces parts) b with _ | ⟨b2, rb2⟩ <;>
        rw [ha2, hb2] at hp
      · exact hp
      · exact hp.elim
      · exact hp.elim
      · obtain ⟨h2, rfl⟩ := hp
        cases ra2
        · exact ⟨h2, rfl⟩
        · exact ⟨h2, rfl⟩

/-- **C83 (part)** Printing any object `i` successfully does not change what any object `j` prints. -/
theorem repr_no_effect_partial (h : List Thing) (hw : NoWrappers h) (n m i j : Nat) (fl fl' : Flags) (s : String)
    (hp : printObj h n i fl = some (fl', .ok s)) :
    (printObj h m j fl').map (·.2) = (printObj h m j fl).map (·.2) := by
  have := printObj_outcome hw m j fl fl' (repr_leaves_no_flag h n i fl fl' s hp)
  rcases ha : printObj h m j fl with _ | ⟨a, ra⟩ <;> rcases hb : printObj h m j fl' with _ | ⟨b, rb⟩ <;>
    simp only [ha, hb] at this
  · rfl
  · exact this.elim
  · exact this.elim
  · obtain ⟨_, rfl⟩ := this
    rfl

/-! ## Exceptions -/

theorem printPieces_keeps {f : Nat → Flags → Option (Flags × Except Err String)}
    (hf : ∀ i a b r, f i a = some (b, r) → ∀ j, a j = some true → b j = some true) :
    ∀ (ps : List Piece) (a b : Flags) (r), printPieces f ps a = some (b, r) → ∀ j, a j = some true → b j = some true
  | [], a, b, r, h, j, hj => by simp [printPieces] at h; obtain ⟨rfl, _⟩ := h; exact hj
  | .fails e :: rest, a, b, r, h, j, hj => by simp [printPieces] at h; obtain ⟨rfl, _⟩ := h; exact hj
  | .text s :: rest, a, b, r, h, j, hj => by
    simp only [printPieces] at h
    rcases ha : printPieces f rest a with _ | ⟨a1, _ | t⟩ <;> simp only [ha] at h
    · cases h
    · simp only [Option.some.injEq, Prod.mk.injEq] at h; obtain ⟨rfl, _⟩ := h
      exact printPieces_keeps hf rest _ _ _ ha j hj
    · simp only [Option.some.injEq, Prod.mk.injEq] at h; obtain ⟨rfl, _⟩ := h
      exact printPieces_keeps hf rest _ _ _ ha j hj
  | .ref i :: rest, a, b, r, h, j, hj => by
    simp only [printPieces] at h
    rcases hi : f i a with _ | ⟨a1, _ | s⟩ <;> simp only [hi] at h
    · cases h
    · simp only [Option.some.injEq, Prod.mk.injEq] at h; obtain ⟨rfl, _⟩ := h
      exact hf _ _ _ _ hi j hj
    · have h1 := hf _ _ _ _ hi j hj
      rcases ha : printPieces f rest a1 with _ | ⟨a2, _ | t⟩ <;> simp only [ha] at h
      · cases h
      · simp only [Option.some.injEq, Prod.mk.injEq] at h; obtain ⟨rfl, _⟩ := h
        exact printPieces_keeps hf rest _ _ _ ha j h1
      · simp only [Option.some.injEq, Prod.mk.injEq] at h; obtain ⟨rfl, _⟩ := h
        exact printPieces_keeps hf rest _ _ _ ha j h1

theorem printFlagged_error {h : List Thing} {f : Nat → Flags → Option (Flags × Except Err String)} {i : Nat}
    (hf : ∀ i a b r, f i a = some (b, r) → ∀ j, a j = some true → b j = some true)
    {cls : String} {attrs : List (String × List Piece)} {a b : Flags} {e : Err}
    (hp : printFlagged h f i cls attrs a = some (b, .error e)) (j : Nat) (hj : a j = some true ∨ j = i) :
    b j = some true := by
  unfold printFlagged at hp
  split at hp
  · simp at hp
  · rcases ha : printPieces f (attrPieces attrs) (a.put i true) with _ | ⟨a1, e' | t⟩ <;> simp only [ha] at hp
    · cases hp
    · simp only [Option.some.injEq, Prod.mk.injEq] at hp
      obtain ⟨rfl, _⟩ := hp
      exact printPieces_keeps hf _ _ _ _ ha j (by
        by_cases hji : j = i
        · simp [Flags.put, hji]
        · simpa [Flags.put, hji] using hj)
    · simp at hp

theorem printObj_keeps (h : List Thing) : ∀ (n i : Nat) (a b : Flags) (r), printObj h n i a = some (b, r) →
    ∀ j, a j = some true → b j = some true
  | 0, _, _, _, _, hp, _, _ => by simp [printObj] at hp
  | n + 1, i, a, b, .ok s, hp, j, hj => (repr_leaves_no_flag h (n + 1) i a b s hp j).1 hj
  | n + 1, i, a, b, .error e, hp, j, hj => by
    have hf := printObj_keeps h n
    unfold printObj at hp
    split at hp
    · simp at hp
    · exact printFlagged_error hf hp j (.inl hj)
    · exact printFlagged_error hf hp j (.inl hj)
    · next cls parts hi =>
      rcases ha : printPieces (printObj h n) (partPieces parts) a with _ | ⟨a1, e' | t⟩ <;> simp only [ha] at hp
      · cases hp
      · simp only [Option.some.injEq, Prod.mk.injEq] at hp
        obtain ⟨rfl, _⟩ := hp
        exact printPieces_keeps hf _ _ _ _ ha j hj
      · simp at hp

/-- A component whose `repr` raised, because that of an attribute did, keeps its flag: from
then on it prints as "recursive reference" instead of raising. -/
theorem failed_repr_stays (h : List Thing) (i : Nat) (cls : String) (attrs : List (String × List Piece))
    (hi : h[i]? = some (.component cls attrs)) (n : Nat) (fl fl' : Flags) (e : Err)
    (hp : printObj h n i fl = some (fl', .error e)) (m : Nat) :
    printObj h (m + 1) i fl' = some (fl', .ok (cls ++ "(recursive reference)")) := by
  cases n with
  | zero => simp [printObj] at hp
  | succ n =>
    have hk := printObj_keeps h n
    unfold printObj at hp
    simp only [hi] at hp
    have := printFlagged_error hk hp i (.inr rfl)
    simp [printObj, hi, printFlagged, making, this]

/-! ## Examples -/

namespace Demo.Repr

/-- A component that refers to itself and to a composite which has it and another one, which
is in it twice. -/
def cyclic : List Thing :=
  [.component "A" [("name", [.text "'a'"]), ("me", [.ref 0]), ("parts", [.text "[", .ref 2, .text "]"])],
   .component "B" [("owner", [.ref 0])],
   .composite "C" [0, 1, 1]]

def quiet : Flags := fun _ => none

example : Ordered cyclic := by
  intro i cls parts hi j hj
  match i with
  | 0 => simp [cyclic] at hi
  | 1 => simp [cyclic] at hi
  | 2 =>
    simp [cyclic] at hi
    obtain ⟨_, rfl⟩ := hi
    simp at hj
    omega
  | n + 3 => simp [cyclic] at hi

example : NoWrappers cyclic := by
  intro i cls attrs j hi
  match i with
  | 0 => simp [cyclic] at hi
  | 1 => simp [cyclic] at hi
  | 2 => simp [cyclic] at hi
  | n + 3 => simp [cyclic] at hi

/-- Text of an outcome. -/
def textOf (x : Option (Flags × Except Err String)) : Option String :=
  match x with
  | some (_, .ok s) => some s
  | _ => none

example : textOf (printObj cyclic 16 0 quiet) =
    some "A('name': 'a'\n'me': A(recursive reference)\n'parts': [C(\nA(recursive reference),\nB('owner': A(recursive reference)),\nB('owner': A(recursive reference))\n)])" := by
  decide +kernel

/-- A component with an attribute that cannot be printed. -/
def broken : List Thing := [.component "A" [("x", [.fails .valueError])]]

example : ∃ fl', printObj broken 1 0 quiet = some (fl', .error .valueError) ∧
    textOf (printObj broken 5 0 fl') = some "A(recursive reference)" := by
  refine ⟨quiet.put 0 true, rfl, ?_⟩
  decide +kernel

/-- A Stepper with a TimeDifferencingWrapper around itself. -/
def wrapped : List Thing :=
  [.component "S" [("w", [.ref 1])], .wrapper "W" [("_implicit", [.ref 0])] 0]

/-- The flags after an outcome. -/
def flagsOf (x : Option (Flags × Except Err String)) : Flags :=
  match x with
  | some (fl, _) => fl
  | none => quiet

end Demo.Repr

/-- Without `NoWrappers` printing has an effect: the Stepper of `wrapped` prints the wrapper in
full only if the wrapper was printed before. -/
theorem repr_has_effect :
    ∃ (h : List Thing) (i j n : Nat), Ordered h ∧
      Demo.Repr.textOf (printObj h n i (fun _ => none)) = some "W('_implicit': S('w': W(recursive reference)))" ∧
      Demo.Repr.textOf (printObj h n j (fun _ => none)) = some "S('w': W(recursive reference))" ∧
      Demo.Repr.textOf (printObj h n j (Demo.Repr.flagsOf (printObj h n i (fun _ => none)))) =
        some "S('w': W('_implicit': S(recursive reference)))" := by
  refine ⟨Demo.Repr.wrapped, 1, 0, 9, ?_, by decide +kernel, by decide +kernel, by decide +kernel⟩
  intro i cls parts hi
  match i with
  | 0 => simp [Demo.Repr.wrapped] at hi
  | 1 => simp [Demo.Repr.wrapped] at hi
  | n + 2 => simp [Demo.Repr.wrapped] at hi

end Verif

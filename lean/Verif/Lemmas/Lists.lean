import Verif.Model.NDArray
import Mathlib.Data.List.Nodup
import Mathlib.Data.List.Basic
import Mathlib.Data.List.Perm.Subperm
/-! # List and `mapM` helper lemmas -/

namespace Verif

theorem mapM_ok_map {α β : Type} {f : α → Except Err β} {g : α → β} {l : List α} {r : List β}
    (hfg : ∀ x ∈ l, ∀ v, f x = .ok v → g x = v) (h : l.mapM f = .ok r) : r = l.map g := by
  induction l generalizing r with
  | nil => simp only [List.mapM_nil, Exc.pure_ok, Except.ok.injEq] at h; simp [h.symm]
  | cons a l ih =>
    rw [List.mapM_cons] at h
    obtain ⟨v, hv, h⟩ := Exc.bind_ok_iff.1 h
    obtain ⟨vs, hvs, h⟩ := Exc.bind_ok_iff.1 h
    cases h
    rw [List.map_cons, hfg a (by simp) v hv,
      ih (fun x hx => hfg x (List.mem_cons_of_mem _ hx)) hvs]

theorem mapM_ok_mem {α β : Type} {f : α → Except Err β} {l : List α} {r : List β}
    (h : l.mapM f = .ok r) : ∀ x ∈ l, ∃ v, f x = .ok v := by
  induction l generalizing r with
  | nil => simp
  | cons a l ih =>
    rw [List.mapM_cons] at h
    obtain ⟨v, hv, h⟩ := Exc.bind_ok_iff.1 h
    obtain ⟨vs, hvs, h⟩ := Exc.bind_ok_iff.1 h
    intro x hx
    rcases List.mem_cons.1 hx with rfl | hx
    · exact ⟨v, hv⟩
    · exact ih hvs x hx

theorem mapM_isOk {α β : Type} {f : α → Except Err β} {g : α → β} {l : List α}
    (h : ∀ x ∈ l, f x = .ok (g x)) : l.mapM f = .ok (l.map g) := by
  induction l with
  | nil => rfl
  | cons a l ih =>
    rw [List.mapM_cons, h a (by simp), ih (fun x hx => h x (List.mem_cons_of_mem _ hx))]
    rfl

theorem mapM_error {α β : Type} {f : α → Except Err β} {l : List α} {e : Err}
    (h : l.mapM f = .error e) : ∃ x ∈ l, f x = .error e := by
  induction l with
  | nil => cases h
  | cons a l ih =>
    rw [List.mapM_cons] at h
    rcases Exc.bind_error_iff.1 h with h | ⟨v, hv, h⟩
    · exact ⟨a, by simp, h⟩
    · rcases Exc.bind_error_iff.1 h with h | ⟨v, hv, h⟩
      · obtain ⟨x, hx, h⟩ := ih h
        exact ⟨x, List.mem_cons_of_mem _ hx, h⟩
      · cases h

/-- Splitting a list at the first occurrence of an element. -/
theorem mapM_getElem? {α β : Type} {f : α → Except Err β} {l : List α} {r : List β}
    (h : l.mapM f = .ok r) {i : Nat} {x : α} (hx : l[i]? = some x) :
    ∃ v, r[i]? = some v ∧ f x = .ok v := by
  induction l generalizing r i with
  | nil => simp at hx
  | cons a l ih =>
    rw [List.mapM_cons] at h
    obtain ⟨b, h1, h2⟩ := Exc.bind_ok_iff.1 h
    obtain ⟨bs, h3, h4⟩ := Exc.bind_ok_iff.1 h2
    cases h4
    cases i with
    | zero => simp at hx; subst hx; exact ⟨b, by simp, h1⟩
    | succ i => simp at hx; simpa using ih h3 hx

theorem mapM_ok_mem_left {α β : Type} {f : α → Except Err β} {l : List α} {r : List β}
    (h : l.mapM f = .ok r) {x : α} (hx : x ∈ l) : ∃ v ∈ r, f x = .ok v := by
  obtain ⟨i, hi⟩ := List.mem_iff_getElem?.1 hx
  obtain ⟨v, hv, hf⟩ := mapM_getElem? h hi
  exact ⟨v, List.mem_iff_getElem?.2 ⟨i, hv⟩, hf⟩

theorem mapM_ok_mem_right {α β : Type} {f : α → Except Err β} {l : List α} {r : List β}
    (h : l.mapM f = .ok r) {y : β} (hy : y ∈ r) : ∃ x ∈ l, f x = .ok y := by
  induction l generalizing r with
  | nil => cases h; cases hy
  | cons a l ih =>
    rw [List.mapM_cons] at h
    obtain ⟨b, hb, h⟩ := Exc.bind_ok_iff.1 h
    obtain ⟨bs, hbs, h⟩ := Exc.bind_ok_iff.1 h
    cases h
    rcases List.mem_cons.1 hy with rfl | hy
    · exact ⟨a, by simp, hb⟩
    · obtain ⟨x, hx, hf⟩ := ih hbs hy
      exact ⟨x, List.mem_cons_of_mem _ hx, hf⟩

theorem mapM_length {α β : Type} {f : α → Except Err β} {l : List α} {r : List β}
    (h : l.mapM f = .ok r) : r.length = l.length := by
  induction l generalizing r with
  | nil => cases h; rfl
  | cons a l ih =>
    rw [List.mapM_cons] at h
    obtain ⟨b, h1, h2⟩ := Exc.bind_ok_iff.1 h
    obtain ⟨bs, h3, h4⟩ := Exc.bind_ok_iff.1 h2
    cases h4
    simp [ih h3]

theorem split_at_idxOf {α : Type} [DecidableEq α] {l : List α} {x : α} (h : x ∈ l) :
    l = l.take (l.idxOf x) ++ x :: l.drop (l.idxOf x + 1) ∧ x ∉ l.take (l.idxOf x) := by
  induction l with
  | nil => simp at h
  | cons a l ih =>
    by_cases hax : a = x
    · subst hax; simp
    · have hx : x ∈ l := by
        rcases List.mem_cons.1 h with h | h
        · exact absurd h.symm hax
        · exact h
      obtain ⟨h1, h2⟩ := ih hx
      have e : (a :: l).idxOf x = l.idxOf x + 1 := by
        rw [List.idxOf_cons_ne _ hax]
      rw [e]
      refine ⟨?_, ?_⟩
      · simp only [List.take_succ_cons, List.drop_succ_cons, List.cons_append]
        rw [← h1]
      · simp only [List.take_succ_cons, List.mem_cons, not_or]
        exact ⟨fun e => hax e.symm, h2⟩

theorem getD_map_idxOf {α : Type} [DecidableEq α] {l : List α} {x : α} (h : x ∈ l)
    (f : α → Nat) : (l.map f).getD (l.idxOf x) 0 = f x := by
  have hlt : l.idxOf x < l.length := List.idxOf_lt_length_iff.2 h
  rw [List.getD_eq_getElem?_getD, List.getElem?_map, List.getElem?_eq_getElem hlt]
  simp

theorem idxOf_map_of_inj {α β : Type} [DecidableEq α] [DecidableEq β] {l : List α} {x : α}
    (f : α → β) (hinj : ∀ y ∈ l, f y = f x → y = x) (hx : x ∈ l) :
    (l.map f).idxOf (f x) = l.idxOf x := by
  induction l with
  | nil => simp at hx
  | cons a l ih =>
    by_cases hax : a = x
    · subst hax; simp
    · have hne : f a ≠ f x := fun e => hax (hinj a (by simp) e)
      rw [List.map_cons, List.idxOf_cons_ne _ hne, List.idxOf_cons_ne _ hax]
      have hx' : x ∈ l := by
        rcases List.mem_cons.1 hx with h | h
        · exact absurd h.symm hax
        · exact h
      rw [ih (fun y hy => hinj y (List.mem_cons_of_mem _ hy)) hx']

theorem map_range_getElem {α : Type} (l : List α) (f : α → Nat) (g : Nat → Nat)
    (h : ∀ i (hi : i < l.length), g i = f l[i]) : (List.range l.length).map g = l.map f := by
  apply List.ext_getElem
  · simp
  · intro i h1 h2
    simp at h1
    simp [h i h1]

theorem mem_zip_map {α β : Type} {l : List α} {f : α → β} {x : α} {y : β}
    (h : (x, y) ∈ l.zip (l.map f)) : x ∈ l ∧ y = f x := by
  induction l with
  | nil => simp at h
  | cons a l ih =>
    simp only [List.map_cons, List.zip_cons_cons, List.mem_cons] at h
    rcases h with h | h
    · cases h; simp
    · obtain ⟨h1, h2⟩ := ih h; exact ⟨List.mem_cons_of_mem _ h1, h2⟩

theorem zip_mem_map {α β : Type} {l : List α} {f : α → β} {x : α} (h : x ∈ l) :
    (x, f x) ∈ l.zip (l.map f) := by
  induction l with
  | nil => simp at h
  | cons a l ih =>
    simp only [List.map_cons, List.zip_cons_cons, List.mem_cons]
    rcases List.mem_cons.1 h with h | h
    · subst h; simp
    · exact Or.inr (ih h)

end Verif

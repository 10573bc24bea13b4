import Verif.Py.Dict
/-!
# numpy arrays

Substrate for `np.ndarray` as used in `sympl/_core/get_np_arrays.py`,
`sympl/_core/wildcard.py`, `sympl/_core/util.py` and others (not a file of
`/repo`).  An array is a shape and a function from index lists to exact
rationals.  Values at out-of-bounds indices are meaningless: all
specifications quantify over in-bounds indices (`InB`).
Not modelled: dtype, strides, views/copies, floating-point rounding.
-/

namespace Verif

/-- Number of elements of a shape (`np.prod(shape)`). -/
def size : List Nat → Nat
  | [] => 1
  | s :: ss => s * size ss

/-- Row-major (C order) position of an index in a shape. -/
def ravel : List Nat → List Nat → Nat
  | _ :: ss, i :: is => i * size ss + ravel ss is
  | _, _ => 0

/-- Inverse of `ravel`: the index at a row-major position. -/
def unravel : List Nat → Nat → List Nat
  | [], _ => []
  | _ :: ss, n => (n / size ss) :: unravel ss (n % size ss)

/-- `InB idx shape`: the index has one entry per axis, each within bounds. -/
def InB : List Nat → List Nat → Prop
  | [], [] => True
  | i :: is, s :: ss => i < s ∧ InB is ss
  | _, _ => False

instance decInB : ∀ (i s : List Nat), Decidable (InB i s)
  | [], [] => isTrue trivial
  | [], _ :: _ => isFalse id
  | _ :: _, [] => isFalse id
  | i :: is, s :: ss =>
    have := decInB is ss
    inferInstanceAs (Decidable (i < s ∧ InB is ss))

/-- A numpy array. -/
structure NDArray where
  shape : List Nat
  get : List Nat → Rat

namespace NDArray

/-- Same shape and same values at every in-bounds index. -/
def Eqv (a b : NDArray) : Prop :=
  a.shape = b.shape ∧ ∀ idx, InB idx a.shape → a.get idx = b.get idx

/-- `array.reshape(shape)` (no `-1` entries): C order, ValueError if sizes differ. -/
def reshape (a : NDArray) (shape : List Nat) : Except Err NDArray :=
  if size shape = size a.shape then
    .ok { shape := shape, get := fun idx => a.get (unravel a.shape (ravel shape idx)) }
  else .error .valueError

/-- `array.transpose(axes)`: axis `j` of the result is axis `axes[j]` of the
array; ValueError unless `axes` is a permutation of the axes. -/
def transpose (a : NDArray) (axes : List Nat) : Except Err NDArray :=
  if axes.length = a.shape.length ∧ axes.Nodup ∧ ∀ x ∈ axes, x < a.shape.length then
    .ok { shape := axes.map (fun i => a.shape.getD i 0),
          get := fun idx =>
            a.get ((List.range a.shape.length).map fun i => idx.getD (axes.idxOf i) 0) }
  else .error .valueError

/-- Can an axis list of the same rank be broadcast to `shape`? -/
def broadcastable : List Nat → List Nat → Bool
  | [], [] => true
  | a :: as, s :: ss => (a == s || a == 1) && broadcastable as ss
  | _, _ => false

/-- Index read from the source of a broadcast: 0 along axes of length 1. -/
def broadcastIdx : List Nat → List Nat → List Nat
  | a :: as, i :: is => (if a = 1 then 0 else i) :: broadcastIdx as is
  | _, _ => []

/-- `out = np.empty(shape); out[:] = array` with equal numbers of axes:
numpy broadcasting, ValueError if an axis has neither length 1 nor the target
length.  Simplification: differing numbers of axes always raise (never happens
in the modelled callers). -/
def broadcastTo (a : NDArray) (shape : List Nat) : Except Err NDArray :=
  if broadcastable a.shape shape then
    .ok { shape := shape, get := fun idx => a.get (broadcastIdx a.shape idx) }
  else .error .valueError

/-- elementwise map -/
def map (f : Rat → Rat) (a : NDArray) : NDArray := { a with get := fun i => f (a.get i) }

/-- `np.zeros(shape)` -/
def zeros (shape : List Nat) : NDArray := { shape := shape, get := fun _ => 0 }

end NDArray

/-! ## Index algebra -/

@[simp] theorem size_nil : size [] = 1 := rfl
@[simp] theorem size_cons (s : Nat) (ss : List Nat) : size (s :: ss) = s * size ss := rfl

theorem size_append (a b : List Nat) : size (a ++ b) = size a * size b := by
  induction a with
  | nil => simp
  | cons s a ih => simp [ih, Nat.mul_assoc]

theorem size_replicate_one (n : Nat) : size (List.replicate n 1) = 1 := by
  induction n with
  | zero => rfl
  | succ n ih => simp [List.replicate_succ, ih]

@[simp] theorem inB_nil : InB [] [] := trivial
@[simp] theorem inB_cons {i s : Nat} {is ss : List Nat} :
    InB (i :: is) (s :: ss) ↔ i < s ∧ InB is ss := Iff.rfl

theorem InB.length : ∀ {i s : List Nat}, InB i s → i.length = s.length
  | [], [], _ => rfl
  | [], _ :: _, h => h.elim
  | _ :: _, [], h => h.elim
  | _ :: _, _ :: _, h => by simp [InB.length h.2]

theorem inB_append {i1 i2 s1 s2 : List Nat} (hl : i1.length = s1.length) :
    InB (i1 ++ i2) (s1 ++ s2) ↔ InB i1 s1 ∧ InB i2 s2 := by
  induction i1 generalizing s1 with
  | nil => cases s1 <;> simp_all
  | cons a i1 ih =>
    cases s1 with
    | nil => simp at hl
    | cons b s1 => simp at hl; simp [ih hl, and_assoc]

theorem ravel_lt : ∀ {i s : List Nat}, InB i s → ravel s i < size s
  | [], [], _ => by simp [ravel]
  | [], _ :: _, h => h.elim
  | _ :: _, [], h => h.elim
  | i :: is, s :: ss, h => by
    have h2 := ravel_lt h.2
    simp only [ravel, size_cons]
    calc i * size ss + ravel ss is < i * size ss + size ss := by omega
      _ = (i + 1) * size ss := by rw [Nat.add_mul, Nat.one_mul]
      _ ≤ s * size ss := Nat.mul_le_mul_right _ h.1

theorem unravel_ravel : ∀ {i s : List Nat}, InB i s → unravel s (ravel s i) = i
  | [], [], _ => rfl
  | [], _ :: _, h => h.elim
  | _ :: _, [], h => h.elim
  | i :: is, s :: ss, h => by
    have h2 := ravel_lt h.2
    have hpos : 0 < size ss := by omega
    simp only [ravel, unravel]
    have e1 : (i * size ss + ravel ss is) / size ss = i := by
      rw [Nat.mul_comm, Nat.mul_add_div hpos, Nat.div_eq_of_lt h2, Nat.add_zero]
    have e2 : (i * size ss + ravel ss is) % size ss = ravel ss is := by
      rw [Nat.mul_comm, Nat.mul_add_mod, Nat.mod_eq_of_lt h2]
    rw [e1, e2, unravel_ravel h.2]

theorem inB_unravel : ∀ {s : List Nat} {n : Nat}, n < size s → InB (unravel s n) s
  | [], _, _ => trivial
  | s :: ss, n, h => by
    simp only [size_cons] at h
    have hpos : 0 < size ss := by
      rcases Nat.eq_zero_or_pos (size ss) with h0 | h0
      · simp [h0] at h
      · exact h0
    exact ⟨by rw [Nat.div_lt_iff_lt_mul hpos]; exact h, inB_unravel (Nat.mod_lt _ hpos)⟩

theorem ravel_unravel : ∀ {s : List Nat} {n : Nat}, n < size s → ravel s (unravel s n) = n
  | [], n, h => by simp at h; simp [ravel, h]
  | s :: ss, n, h => by
    simp only [size_cons] at h
    have hpos : 0 < size ss := by
      rcases Nat.eq_zero_or_pos (size ss) with h0 | h0
      · simp [h0] at h
      · exact h0
    simp only [unravel, ravel]
    rw [ravel_unravel (Nat.mod_lt _ hpos), Nat.mul_comm]
    exact Nat.div_add_mod n (size ss)

theorem ravel_append {i1 i2 s1 s2 : List Nat} (hl : i1.length = s1.length) :
    ravel (s1 ++ s2) (i1 ++ i2) = ravel s1 i1 * size s2 + ravel s2 i2 := by
  induction i1 generalizing s1 with
  | nil => cases s1 <;> simp_all [ravel]
  | cons a i1 ih =>
    cases s1 with
    | nil => simp at hl
    | cons b s1 =>
      simp at hl
      simp only [List.cons_append, ravel, ih hl, size_append]
      rw [Nat.add_mul, Nat.mul_assoc, Nat.add_assoc]

theorem ravel_singleton (s i : Nat) : ravel [s] [i] = i := by simp [ravel]

/-- Collapsing the middle group of axes into one does not move elements. -/
theorem ravel_flatten {i1 iw i2 s1 sw s2 : List Nat}
    (h1 : i1.length = s1.length) (hw : iw.length = sw.length) :
    ravel (s1 ++ [size sw] ++ s2) (i1 ++ [ravel sw iw] ++ i2) =
      ravel (s1 ++ sw ++ s2) (i1 ++ iw ++ i2) := by
  rw [List.append_assoc, List.append_assoc, ravel_append h1, List.append_assoc,
    List.append_assoc, ravel_append h1, ravel_append (by simp : [ravel sw iw].length = [size sw].length),
    ravel_append hw, ravel_singleton]
  simp [size_append]

theorem ravel_replicate_one (n : Nat) (s i : List Nat) :
    ravel (List.replicate n 1 ++ s) (List.replicate n 0 ++ i) = ravel s i := by
  induction n with
  | zero => rfl
  | succ n ih => simp [List.replicate_succ, ravel, ih]

theorem inB_replicate (n : Nat) : InB (List.replicate n 0) (List.replicate n 1) := by
  induction n with
  | zero => trivial
  | succ n ih => simp [List.replicate_succ, ih]

theorem inB_iff_getElem {i s : List Nat} : InB i s ↔
    i.length = s.length ∧ ∀ k (h : k < i.length) (h' : k < s.length), i[k] < s[k] := by
  induction i generalizing s with
  | nil => cases s <;> simp [InB]
  | cons a i ih =>
    cases s with
    | nil => simp [InB]
    | cons b s =>
      rw [inB_cons, ih]
      constructor
      · rintro ⟨h0, hl, hr⟩
        refine ⟨by simp [hl], ?_⟩
        intro k h h'
        cases k with
        | zero => simpa
        | succ k => simpa using hr k (by simpa using h) (by simpa using h')
      · rintro ⟨hl, hr⟩
        refine ⟨hr 0 (by simp) (by simp), by simpa using hl, ?_⟩
        intro k h h'
        exact hr (k+1) (by simpa using h) (by simpa using h')

theorem inB_map {α : Type} (l : List α) (f g : α → Nat) :
    InB (l.map f) (l.map g) ↔ ∀ x ∈ l, f x < g x := by
  induction l with
  | nil => simp
  | cons a l ih => simp [ih]

/-! ## Array operation lemmas -/
namespace NDArray

theorem Eqv.refl (a : NDArray) : a.Eqv a := ⟨rfl, fun _ _ => rfl⟩
theorem Eqv.symm {a b : NDArray} (h : a.Eqv b) : b.Eqv a :=
  ⟨h.1.symm, fun i hi => (h.2 i (h.1 ▸ hi)).symm⟩
theorem Eqv.trans {a b c : NDArray} (h : a.Eqv b) (h' : b.Eqv c) : a.Eqv c :=
  ⟨h.1.trans h'.1, fun i hi => (h.2 i hi).trans (h'.2 i (h.1 ▸ hi))⟩

theorem reshape_ok {a b : NDArray} {s : List Nat} (h : a.reshape s = .ok b) :
    size s = size a.shape ∧ b.shape = s ∧
      ∀ i j, InB i s → InB j a.shape → ravel s i = ravel a.shape j → b.get i = a.get j := by
  unfold reshape at h
  split at h
  · rename_i hs
    cases h
    refine ⟨hs, rfl, ?_⟩
    intro i j _ hj e
    show a.get (unravel a.shape (ravel s i)) = _
    rw [e, unravel_ravel hj]
  · cases h

theorem reshape_self (a : NDArray) {b : NDArray} (h : a.reshape a.shape = .ok b) : b.Eqv a := by
  obtain ⟨_, h2, h3⟩ := reshape_ok h
  exact ⟨h2, fun i hi => h3 i i (h2 ▸ hi) (h2 ▸ hi) rfl⟩

theorem reshape_isOk {a : NDArray} {s : List Nat} (h : size s = size a.shape) :
    ∃ b, a.reshape s = .ok b := by simp [reshape, h]

theorem reshape_error {a : NDArray} {s : List Nat} {e : Err} (h : a.reshape s = .error e) :
    e = .valueError ∧ size s ≠ size a.shape := by
  unfold reshape at h; split at h
  · cases h
  · cases h; exact ⟨rfl, by assumption⟩

/-- Reshaping there and back returns the original array. -/
theorem reshape_reshape {a b c : NDArray} {s : List Nat} (h : a.reshape s = .ok b)
    (h' : b.reshape a.shape = .ok c) : c.Eqv a := by
  obtain ⟨h1, h2, h3⟩ := reshape_ok h
  obtain ⟨k1, k2, k3⟩ := reshape_ok h'
  refine ⟨k2, fun i hi => ?_⟩
  rw [k2] at hi
  have hlt := ravel_lt hi
  rw [← h1] at hlt
  have hin := inB_unravel hlt
  have hr := ravel_unravel hlt
  rw [k3 i (unravel s (ravel a.shape i)) hi (h2 ▸ hin) (by rw [h2, hr])]
  exact h3 _ i hin hi hr

theorem transpose_ok {a b : NDArray} {axes : List Nat} (h : a.transpose axes = .ok b) :
    axes.length = a.shape.length ∧ axes.Nodup ∧ (∀ x ∈ axes, x < a.shape.length) ∧
    b.shape = axes.map (fun i => a.shape.getD i 0) ∧
    ∀ idx, b.get idx = a.get ((List.range a.shape.length).map fun i => idx.getD (axes.idxOf i) 0) := by
  unfold transpose at h
  split at h
  · rename_i hh
    cases h
    exact ⟨hh.1, hh.2.1, hh.2.2, rfl, fun _ => rfl⟩
  · cases h

end NDArray
end Verif

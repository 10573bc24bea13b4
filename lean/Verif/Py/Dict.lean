/-!
# Python dictionaries and exceptions

Python substrate, not a file of `/repo`.  A `dict` with string keys is an
insertion-ordered association list.  The model never relies on keys being
unique in the representation: `get?` reads the first entry and `set` overwrites
the first entry, so a list with repeated keys behaves like its first entries.
Where uniqueness matters it is an explicit hypothesis `d.keys.Nodup`, which
`set` preserves (`nodup_keys_set`).
-/

namespace Verif

/-- Exception classes raised by the modelled code (messages are not modelled). -/
inductive Err where
  | invalidState        -- sympl InvalidStateError
  | invalidPropertyDict -- sympl InvalidPropertyDictError
  | sharedKey           -- sympl SharedKeyError
  | missingOutput       -- sympl ComponentMissingOutputError
  | extraOutput         -- sympl ComponentExtraOutputError
  | dependency          -- sympl DependencyError
  | keyError | valueError | typeError | runtimeError | ioError | indexError
  | attributeError | notImplemented | assertion
  | undefinedUnit       -- pint UndefinedUnitError
  | dimensionality      -- pint DimensionalityError
  | noMatchForDirection -- sympl NoMatchForDirectionError (util.py)
  | dimNotInOutDims     -- sympl DimensionNotInOutDimsError, a ValueError (util.py)
  | shapeMismatch       -- sympl ShapeMismatchError (util.py)
  | user                -- any exception raised by user code (array_call)
  | usage
  deriving DecidableEq, Repr, Inhabited

/-- An insertion-ordered Python dict with string keys. -/
abbrev Dict (α : Type u) := List (String × α)

namespace Dict
variable {α : Type u} {β : Type v}

/-- `d.get(k)` -/
def get? : Dict α → String → Option α
  | [], _ => none
  | (k, v) :: d, q => if k = q then some v else get? d q

/-- `d[k]`, raising KeyError -/
def get (d : Dict α) (k : String) : Except Err α :=
  match d.get? k with
  | some v => .ok v
  | none => .error .keyError

/-- `d[k] = v` -/
def set : Dict α → String → α → Dict α
  | [], q, w => [(q, w)]
  | (k, v) :: d, q, w => if k = q then (k, w) :: d else (k, v) :: set d q w

/-- `list(d.keys())` -/
def keys (d : Dict α) : List String := d.map (·.1)

/-- `k in d` -/
def has (d : Dict α) (k : String) : Bool := (d.get? k).isSome

/-- `d.update(e)` -/
def update (d e : Dict α) : Dict α := e.foldl (fun d kv => d.set kv.1 kv.2) d

/-- `d.pop(k)` / `del d[k]` -/
def erase : Dict α → String → Dict α
  | [], _ => []
  | (k, v) :: d, q => if k = q then d else (k, v) :: erase d q

/-- `{k: f(v) for k, v in d.items()}` -/
def mapVal (f : α → β) (d : Dict α) : Dict β := d.map (fun kv => (kv.1, f kv.2))

@[simp] theorem get?_nil (k : String) : get? ([] : Dict α) k = none := rfl

theorem get?_cons (k : String) (v : α) (d : Dict α) (q : String) :
    get? ((k, v) :: d) q = if k = q then some v else get? d q := rfl

@[simp] theorem keys_nil : keys ([] : Dict α) = [] := rfl
@[simp] theorem keys_cons (kv : String × α) (d : Dict α) :
    keys (kv :: d) = kv.1 :: keys d := rfl

theorem get?_eq_none_iff (d : Dict α) (k : String) : d.get? k = none ↔ k ∉ d.keys := by
  induction d with
  | nil => simp
  | cons kv d ih =>
    obtain ⟨a, v⟩ := kv
    rw [get?_cons]
    by_cases h : a = k
    · simp [h]
    · have h' : k ≠ a := fun e => h e.symm
      simp [h, h', ih]

theorem get?_isSome_iff (d : Dict α) (k : String) : (d.get? k).isSome ↔ k ∈ d.keys := by
  have := get?_eq_none_iff d k
  cases h : d.get? k with
  | none => simp_all
  | some v => simp_all

theorem mem_keys_of_get? {d : Dict α} {k : String} {v : α} (h : d.get? k = some v) :
    k ∈ d.keys := (get?_isSome_iff d k).1 (by simp [h])

theorem get?_of_mem_keys {d : Dict α} {k : String} (h : k ∈ d.keys) :
    ∃ v, d.get? k = some v := Option.isSome_iff_exists.1 ((get?_isSome_iff d k).2 h)

theorem mem_of_get? {d : Dict α} {k : String} {v : α} (h : d.get? k = some v) :
    (k, v) ∈ d := by
  induction d with
  | nil => simp at h
  | cons kv d ih =>
    obtain ⟨a, w⟩ := kv
    rw [get?_cons] at h
    split at h
    · rename_i hk
      simp at h; simp [hk, h]
    · exact List.mem_cons_of_mem _ (ih h)

theorem mem_keys_of_mem {d : Dict α} {kv : String × α} (h : kv ∈ d) : kv.1 ∈ d.keys :=
  List.mem_map.2 ⟨kv, h, rfl⟩

theorem get?_of_mem {d : Dict α} (hd : d.keys.Nodup) {k : String} {v : α}
    (h : (k, v) ∈ d) : d.get? k = some v := by
  induction d with
  | nil => simp at h
  | cons kv d ih =>
    obtain ⟨a, w⟩ := kv
    rw [get?_cons]
    rw [keys_cons, List.nodup_cons] at hd
    rcases List.mem_cons.1 h with h | h
    · cases h; simp
    · have : k ∈ keys d := mem_keys_of_mem h
      have hne : a ≠ k := fun e => hd.1 (e ▸ this)
      simp [hne, ih hd.2 h]

theorem get?_set (d : Dict α) (k q : String) (w : α) :
    (d.set k w).get? q = if k = q then some w else d.get? q := by
  induction d with
  | nil => simp [set, get?_cons]
  | cons kv d ih =>
    obtain ⟨a, v⟩ := kv
    unfold set
    by_cases h : a = k
    · subst h
      simp only [if_true, get?_cons]
      by_cases h2 : a = q <;> simp [h2]
    · simp only [h, if_false, get?_cons, ih]
      by_cases h2 : k = q
      · subst h2; simp [h]
      · simp [h2]

@[simp] theorem get?_set_self (d : Dict α) (k : String) (w : α) :
    (d.set k w).get? k = some w := by simp [get?_set]

theorem get?_set_ne (d : Dict α) {k q : String} (w : α) (h : k ≠ q) :
    (d.set k w).get? q = d.get? q := by simp [get?_set, h]

theorem keys_set (d : Dict α) (k : String) (w : α) :
    (d.set k w).keys = if k ∈ d.keys then d.keys else d.keys ++ [k] := by
  induction d with
  | nil => simp [set]
  | cons kv d ih =>
    obtain ⟨a, v⟩ := kv
    unfold set
    by_cases h : a = k
    · subst h; simp
    · have h' : k ≠ a := fun e => h e.symm
      simp only [h, if_false, keys_cons, ih, List.mem_cons, h', false_or]
      split <;> simp

theorem mem_set {d : Dict α} {k : String} {w : α} {x : String × α} (h : x ∈ d.set k w) :
    x ∈ d ∨ x = (k, w) := by
  induction d with
  | nil => simp [set] at h; exact Or.inr h
  | cons y d ih =>
    obtain ⟨q, v⟩ := y
    simp only [set] at h
    split at h
    · rename_i he
      rcases List.mem_cons.1 h with h | h
      · right; rw [h, he]
      · left; exact List.mem_cons_of_mem _ h
    · rcases List.mem_cons.1 h with h | h
      · left; rw [h]; exact List.mem_cons_self
      · rcases ih h with h | h
        · left; exact List.mem_cons_of_mem _ h
        · exact Or.inr h

theorem mem_keys_set (d : Dict α) (k q : String) (w : α) :
    q ∈ (d.set k w).keys ↔ q = k ∨ q ∈ d.keys := by
  rw [keys_set]; split
  · constructor
    · exact Or.inr
    · rintro (h | h)
      · subst h; assumption
      · exact h
  · simp [or_comm]

theorem nodup_keys_set {d : Dict α} (h : d.keys.Nodup) (k : String) (w : α) :
    (d.set k w).keys.Nodup := by
  rw [keys_set]; split
  · exact h
  · rename_i hk
    rw [List.nodup_append]
    exact ⟨h, by simp, by intro a ha b hb; simp at hb; subst hb; exact fun e => hk (e ▸ ha)⟩

theorem set_mem_ne {d : Dict α} {k : String} {w : α} {kv : String × α}
    (h : kv ∈ d.set k w) : kv = (k, w) ∨ kv ∈ d := by
  induction d with
  | nil => simpa [set] using h
  | cons a d ih =>
    obtain ⟨x, v⟩ := a
    unfold set at h
    by_cases hx : x = k
    · subst hx; simp at h; rcases h with h | h
      · exact Or.inl h
      · exact Or.inr (by simp [h])
    · simp only [hx, if_false, List.mem_cons] at h
      rcases h with h | h
      · exact Or.inr (by simp [h])
      · rcases ih h with h | h
        · exact Or.inl h
        · exact Or.inr (by simp [h])

@[simp] theorem update_nil (d : Dict α) : d.update [] = d := rfl
theorem update_cons (d : Dict α) (kv : String × α) (e : Dict α) :
    d.update (kv :: e) = (d.set kv.1 kv.2).update e := rfl

theorem nodup_keys_update {d : Dict α} (h : d.keys.Nodup) (e : Dict α) :
    (d.update e).keys.Nodup := by
  induction e generalizing d with
  | nil => exact h
  | cons kv e ih => rw [update_cons]; exact ih (nodup_keys_set h _ _)

theorem mem_keys_update (d e : Dict α) (q : String) :
    q ∈ (d.update e).keys ↔ q ∈ d.keys ∨ q ∈ e.keys := by
  induction e generalizing d with
  | nil => simp
  | cons kv e ih =>
    rw [update_cons, ih, mem_keys_set]
    simp only [keys_cons, List.mem_cons]
    constructor
    · rintro ((h | h) | h) <;> simp [h]
    · rintro (h | h | h) <;> simp [h]

/-- `update` reads from the right operand first, when its keys are unique. -/
theorem get?_update (d e : Dict α) (he : e.keys.Nodup) (q : String) :
    (d.update e).get? q = (e.get? q).or (d.get? q) := by
  induction e generalizing d with
  | nil => simp
  | cons kv e ih =>
    obtain ⟨k, v⟩ := kv
    rw [keys_cons, List.nodup_cons] at he
    rw [update_cons, ih _ he.2, get?_set, get?_cons]
    by_cases h : k = q
    · subst h
      have : get? e k = none := (get?_eq_none_iff _ _).2 he.1
      simp [this]
    · simp [h]

@[simp] theorem keys_mapVal (f : α → β) (d : Dict α) : (d.mapVal f).keys = d.keys := by
  simp [mapVal, keys]

theorem get?_mapVal (f : α → β) (d : Dict α) (k : String) :
    (d.mapVal f).get? k = (d.get? k).map f := by
  induction d with
  | nil => rfl
  | cons kv d ih =>
    obtain ⟨a, v⟩ := kv
    have : mapVal f ((a, v) :: d) = (a, f v) :: mapVal f d := rfl
    rw [this, get?_cons, get?_cons, ih]
    split <;> simp

theorem keys_erase (d : Dict α) (k : String) : (d.erase k).keys = d.keys.erase k := by
  induction d with
  | nil => rfl
  | cons kv d ih =>
    obtain ⟨a, v⟩ := kv
    unfold erase
    by_cases h : a = k
    · subst h; simp
    · simp only [h, if_false, keys_cons, ih]
      rw [List.erase_cons_tail (by simpa using h)]

theorem get?_erase_ne (d : Dict α) {k q : String} (h : k ≠ q) :
    (d.erase k).get? q = d.get? q := by
  induction d with
  | nil => rfl
  | cons kv d ih =>
    obtain ⟨a, v⟩ := kv
    unfold erase
    by_cases h1 : a = k
    · subst h1; simp [get?_cons, h]
    · simp [h1, get?_cons, ih]

theorem get?_erase_self {d : Dict α} (hd : d.keys.Nodup) (k : String) :
    (d.erase k).get? k = none := by
  rw [get?_eq_none_iff, keys_erase]
  exact fun h => (List.Nodup.not_mem_erase hd) h

theorem get?_append (d e : Dict α) (k : String) :
    get? (d ++ e) k = (d.get? k).or (e.get? k) := by
  induction d with
  | nil => simp
  | cons kv d ih =>
    obtain ⟨a, v⟩ := kv
    rw [List.cons_append, get?_cons, get?_cons, ih]
    split <;> simp

@[simp] theorem keys_append (d e : Dict α) : keys (d ++ e) = d.keys ++ e.keys := by
  simp [keys]

theorem set_of_not_mem {d : Dict α} {k : String} (h : k ∉ d.keys) (w : α) :
    d.set k w = d ++ [(k, w)] := by
  induction d with
  | nil => rfl
  | cons kv d ih =>
    obtain ⟨a, v⟩ := kv
    simp only [keys_cons, List.mem_cons, not_or] at h
    have h' : a ≠ k := fun e => h.1 e.symm
    unfold set
    simp [h', ih h.2]

theorem get_eq_ok {d : Dict α} {k : String} {v : α} :
    d.get k = .ok v ↔ d.get? k = some v := by
  unfold get; cases h : d.get? k <;> simp

theorem get_eq_error {d : Dict α} {k : String} {e : Err} (h : d.get k = .error e) :
    e = .keyError ∧ k ∉ d.keys := by
  unfold get at h; cases h' : d.get? k with
  | none => simp [h'] at h; exact ⟨h.symm, (get?_eq_none_iff _ _).1 h'⟩
  | some v => simp [h'] at h

end Dict

/-! ## Exception monad lemmas -/

namespace Exc
variable {ε : Type} {α : Type u} {β : Type v}

theorem bind_ok_iff {α β : Type u} {x : Except ε α} {f : α → Except ε β} {b : β} :
    (x >>= f) = .ok b ↔ ∃ a, x = .ok a ∧ f a = .ok b := by
  cases x with
  | error e =>
    constructor
    · intro h; cases h
    · rintro ⟨a, h, _⟩; cases h
  | ok a =>
    constructor
    · intro h; exact ⟨a, rfl, h⟩
    · rintro ⟨a', h, h'⟩; cases h; exact h'

theorem bind_error_iff {α β : Type u} {x : Except ε α} {f : α → Except ε β} {e : ε} :
    (x >>= f) = .error e ↔ x = .error e ∨ ∃ a, x = .ok a ∧ f a = .error e := by
  cases x with
  | error e' =>
    constructor
    · intro h; left; cases h; rfl
    · rintro (h | ⟨a, h, _⟩)
      · cases h; rfl
      · cases h
  | ok a => exact ⟨fun h => Or.inr ⟨a, rfl, h⟩, fun h => by
      rcases h with h | ⟨a', h, h'⟩
      · cases h
      · cases h; exact h'⟩

@[simp] theorem ok_bind {α β : Type u} (a : α) (f : α → Except ε β) :
    ((Except.ok a : Except ε α) >>= f) = f a := rfl
@[simp] theorem error_bind {α β : Type u} (e : ε) (f : α → Except ε β) :
    ((Except.error e : Except ε α) >>= f) = .error e := rfl
@[simp] theorem pure_ok {α : Type u} (a : α) : (pure a : Except ε α) = .ok a := rfl

end Exc

/-- Did the call raise? -/
def raises {α : Type u} (x : Except Err α) : Prop := ∃ e, x = .error e

theorem not_raises_ok {α : Type u} (a : α) : ¬ raises (.ok a : Except Err α) := by
  rintro ⟨e, h⟩; cases h

end Verif

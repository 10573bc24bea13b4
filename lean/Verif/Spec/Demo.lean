import Verif.Spec.Arrays
/-!
# Concrete objects for the non-vacuity examples

Nothing here is part of the model or of a specification.
-/

namespace Verif

/-- Boolean test of a successful result. -/
def Exc.test {α : Type u} (x : Except Err α) (p : α → Bool) : Bool :=
  match x with
  | .ok a => p a
  | .error _ => false

/-- Boolean test of a raised exception. -/
def Exc.failsWith {α : Type u} (x : Except Err α) (e : Err) : Bool :=
  match x with
  | .ok _ => false
  | .error e' => decide (e' = e)

theorem Exc.test_ok {α : Type u} {x : Except Err α} {p : α → Bool} (h : Exc.test x p = true) :
    ∃ a, x = .ok a ∧ p a = true := by
  cases x with
  | ok a => exact ⟨a, rfl, h⟩
  | error e => simp [Exc.test] at h

theorem Exc.failsWith_error {α : Type u} {x : Except Err α} {e : Err}
    (h : Exc.failsWith x e = true) : x = .error e := by
  cases x with
  | ok a => simp [Exc.failsWith] at h
  | error e' => simp [Exc.failsWith] at h; rw [h]

namespace Demo

/-- base dimensions: temperature, length, time, mass -/
def mkU (dim : List Int) (scale offset : Rat) (h : 0 < scale) : PintUnit := ⟨dim, scale, offset, h⟩

def table : Dict PintUnit :=
  [("K", mkU [1, 0, 0, 0] 1 0 (by decide)),
   ("degC", mkU [1, 0, 0, 0] 1 (27315 / 100) (by decide +kernel)),
   ("degF", mkU [1, 0, 0, 0] (5 / 9) (45967 / 180) (by decide +kernel)),
   ("K s^-1", mkU [1, 0, -1, 0] 1 0 (by decide)),
   ("K day^-1", mkU [1, 0, -1, 0] (1 / 86400) 0 (by decide +kernel)),
   ("degK/s", mkU [1, 0, -1, 0] 1 0 (by decide)),
   ("m", mkU [0, 1, 0, 0] 1 0 (by decide)),
   ("km", mkU [0, 1, 0, 0] 1000 0 (by decide)),
   ("m s^-1", mkU [0, 1, -1, 0] 1 0 (by decide)),
   ("km s^-1", mkU [0, 1, -1, 0] 1000 0 (by decide)),
   ("m/s", mkU [0, 1, -1, 0] 1 0 (by decide)),
   ("m s^-1 s^-1", mkU [0, 1, -2, 0] 1 0 (by decide)),
   ("s", mkU [0, 0, 1, 0] 1 0 (by decide)),
   ("kg kg^-1", mkU [0, 0, 0, 0] 1 0 (by decide)),
   ("g kg^-1", mkU [0, 0, 0, 0] (1 / 1000) 0 (by decide +kernel)),
   ("kg kg^-1 s^-1", mkU [0, 0, -1, 0] 1 0 (by decide))]

/-- A small registry including offset units and two spellings of one unit. -/
def reg : Registry where
  parse s := table.get? s
  clean s := if s = "km" then "m" else if s = "degC" ∨ s = "degF" then "K" else s

theorem reg_faithful : reg.Faithful := by
  have key : (table.all fun x => table.all fun y =>
      !(decide (x.2.dim = y.2.dim) && decide (x.2.scale + x.2.offset = y.2.scale + y.2.offset)) ||
      (decide (x.2.scale = y.2.scale) && decide (x.2.offset = y.2.offset))) = true := by
    decide +kernel
  intro s t a b hs ht hd he
  have h1 := Dict.mem_of_get? hs
  have h2 := Dict.mem_of_get? ht
  rw [List.all_eq_true] at key
  have k1 := key _ h1
  rw [List.all_eq_true] at k1
  have k2 := k1 _ h2
  simp only [Bool.or_eq_true, Bool.not_eq_true', Bool.and_eq_false_iff, Bool.and_eq_true,
    decide_eq_true_eq, decide_eq_false_iff_not] at k2
  rcases k2 with (k2 | k2) | k2
  · exact absurd hd k2
  · exact absurd he k2
  · exact k2

/-- temperature on (x, z, y) in K; values 100 x + 10 z + y -/
def temp : DataArray :=
  { dims := ["x", "z", "y"]
    arr := ⟨[2, 3, 2], fun i => (i.getD 0 0 : Nat) * 100 + (i.getD 1 0 : Nat) * 10 + (i.getD 2 0 : Nat)⟩
    attrs := [("units", "K"), ("long_name", "temperature")] }

/-- pressure-like profile on (z) in km -/
def prof : DataArray :=
  { dims := ["z"], arr := ⟨[3], fun i => (i.getD 0 0 : Nat) + 1⟩, attrs := [("units", "km")] }

def state : State := [("T", .da temp), ("h", .da prof), ("time", .time 0)]

/-- `T` is needed transposed and flattened under an alias in degC, `h` is
broadcast over the wildcard in m. -/
def props : PropDict :=
  [("T", { dims := some ["z", "*"], units := some "degC", aliasName := some "temp" }),
   ("h", { dims := some ["*", "z"], units := some "m" })]

theorem state_wf : state.WF := by
  intro n a h
  have := Dict.mem_of_get? h
  simp only [state, List.mem_cons, Prod.mk.injEq, List.not_mem_nil, or_false] at this
  rcases this with h | h | h
  · obtain ⟨_, h⟩ := h; cases h; exact ⟨rfl, by decide⟩
  · obtain ⟨_, h⟩ := h; cases h; exact ⟨rfl, by decide⟩
  · obtain ⟨_, h⟩ := h; cases h

end Demo
end Verif

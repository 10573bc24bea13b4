import Verif.Lemmas.Wildcard
import Verif.Spec.Views
import Verif.Spec.TimeSteppers
import Verif.Props.StateUnits
import Mathlib.Logic.Equiv.List
/-! # Lemmas about views -/

namespace Verif

/-- Leaving out where the elements are. -/
def Exc.arrs : Except Err VArray → Except Err NDArray
  | .ok v => .ok v.arr
  | .error e => .error e

theorem Exc.arrs_bind {α : Type} (x : Except Err α) (f : α → Except Err VArray) :
    Exc.arrs (x >>= f) = x >>= fun a => Exc.arrs (f a) := by cases x <;> rfl

theorem VArray.reshape_arrs (c : Bool) (v : VArray) (s : List Nat) : Exc.arrs (v.reshape c s) = v.arr.reshape s := by
  unfold VArray.reshape
  cases v.arr.reshape s <;> rfl

theorem VArray.transpose_arrs (v : VArray) (s : List Nat) : Exc.arrs (v.transpose s) = v.arr.transpose s := by
  unfold VArray.transpose
  cases v.arr.transpose s <;> rfl

theorem VArray.spread_arrs (v : VArray) (s : List Nat) : Exc.arrs (v.spread s) = v.arr.broadcastTo s := by
  unfold VArray.spread
  cases v.arr.broadcastTo s <;> rfl

theorem flattenV_arrs (c : Bool) (v : VArray) (i j : Nat) :
    Exc.arrs (flattenWildcardDimsV c v i j) = flattenWildcardDims v.arr i j := by
  unfold flattenWildcardDimsV flattenWildcardDims
  split
  · rfl
  split
  · rfl
  split <;> exact VArray.reshape_arrs _ _ _

theorem getNumpyArrayV_arrs (a : DataArray) (od : List String) (lens : Dict Nat) :
    Exc.arrs (getNumpyArrayV a od lens) = getNumpyArray a od lens := by
  unfold getNumpyArrayV getNumpyArray
  split
  · rfl
  split
  · rfl
  · have hb : ∀ (x : Except Err (VArray × List String)) (y : Except Err (NDArray × List String))
        (f : VArray × List String → Except Err VArray) (g : NDArray × List String → Except Err NDArray),
        Exc.Rel (fun p q => p.1.arr = q.1 ∧ p.2 = q.2) x y →
        (∀ p q, p.1.arr = q.1 → p.2 = q.2 → Exc.arrs (f p) = g q) → Exc.arrs (x >>= f) = (y >>= g) := by
      intro x y f g hxy hfg
      cases x <;> cases y
      · cases (show _ = _ from hxy); rfl
      · exact hxy.elim
      · exact hxy.elim
      · exact hfg _ _ hxy.1 hxy.2
    refine hb _ _ _ _ ?_ ?_
    · split
      · have := VArray.reshape_arrs false ⟨a.arr, some id⟩
          (List.replicate (od.filter (fun d => d ∉ a.dims)).length 1 ++ a.arr.shape)
        rw [← this]
        cases VArray.reshape false ⟨a.arr, some id⟩
          (List.replicate (od.filter (fun d => d ∉ a.dims)).length 1 ++ a.arr.shape)
        · rfl
        · exact ⟨rfl, rfl⟩
      · exact ⟨rfl, rfl⟩
    · rintro ⟨v, c⟩ ⟨v', c'⟩ h1 h2
      dsimp only at h1 h2 ⊢
      subst h1 h2
      rw [Exc.arrs_bind]
      have hc : ∀ (x : Except Err VArray) (y : Except Err NDArray) (f : VArray → Except Err NDArray)
          (g : NDArray → Except Err NDArray), Exc.arrs x = y → (∀ p, f p = g p.arr) → (x >>= f) = (y >>= g) := by
        intro x y f g hxy hfg
        subst hxy
        cases x
        · rfl
        · exact hfg _
      refine hc _ _ _ _ ?_ ?_
      · split
        · rfl
        · rw [Exc.arrs_bind]
          simp only [VArray.transpose_arrs]
      · intro w
        split
        · rfl
        split
        · rfl
        · exact VArray.spread_arrs _ _

/-- Two arrays made in the same way from `a` and `a'`: as views of the same elements, or not as views. -/
def ViewRel (a a' : DataArray) (v v' : VArray) : Prop :=
  v.arr.shape = v'.arr.shape ∧ v.pos = v'.pos ∧
  ∀ p, v.pos = some p → (∀ idx, v.arr.get idx = a.arr.get (p idx)) ∧ ∀ idx, v'.arr.get idx = a'.arr.get (p idx)

section
variable {a a' : DataArray} {v v' : VArray}

theorem ViewRel.reshape (h : ViewRel a a' v v') (c : Bool) (s : List Nat) :
    Exc.Rel (ViewRel a a') (v.reshape c s) (v'.reshape c s) := by
  obtain ⟨h1, h2, h3⟩ := h
  unfold VArray.reshape NDArray.reshape
  rw [h1, ← h2]
  split
  · refine ⟨rfl, rfl, ?_⟩
    intro p hp
    cases c
    · cases hv : v.pos with
      | none => rw [hv] at hp; cases hp
      | some q =>
        rw [hv] at hp
        injection hp with hp
        subst hp
        exact ⟨fun idx => (h3 q hv).1 _, fun idx => (h3 q hv).2 _⟩
    · cases hp
  · rfl

theorem ViewRel.transpose (h : ViewRel a a' v v') (s : List Nat) :
    Exc.Rel (ViewRel a a') (v.transpose s) (v'.transpose s) := by
  obtain ⟨h1, h2, h3⟩ := h
  unfold VArray.transpose NDArray.transpose
  rw [h1, ← h2]
  split
  · refine ⟨rfl, rfl, ?_⟩
    intro p hp
    cases hv : v.pos with
    | none => rw [hv] at hp; cases hp
    | some q =>
      rw [hv] at hp
      injection hp with hp
      subst hp
      exact ⟨fun idx => (h3 q hv).1 _, fun idx => (h3 q hv).2 _⟩
  · rfl

theorem ViewRel.spread (h : ViewRel a a' v v') (s : List Nat) : Exc.Rel (ViewRel a a') (v.spread s) (v'.spread s) := by
  obtain ⟨h1, h2, h3⟩ := h
  unfold VArray.spread NDArray.broadcastTo
  rw [h1]
  split
  · exact ⟨rfl, rfl, fun p hp => by cases hp⟩
  · rfl

theorem ViewRel.flatten (h : ViewRel a a' v v') (c : Bool) (i j : Nat) :
    Exc.Rel (ViewRel a a') (flattenWildcardDimsV c v i j) (flattenWildcardDimsV c v' i j) := by
  have h1 := h.1
  unfold flattenWildcardDimsV
  rw [h1]
  split
  · rfl
  split
  · rfl
  split <;> exact h.reshape _ _

theorem getNumpyArrayV_rel (hd : a.dims = a'.dims) (hs : a.arr.shape = a'.arr.shape) (od : List String)
    (lens : Dict Nat) : Exc.Rel (ViewRel a a') (getNumpyArrayV a od lens) (getNumpyArrayV a' od lens) := by
  have hbase : ViewRel a a' ⟨a.arr, some id⟩ ⟨a'.arr, some id⟩ :=
    ⟨hs, rfl, fun p hp => by injection hp with hp; subst hp; exact ⟨fun _ => rfl, fun _ => rfl⟩⟩
  unfold getNumpyArrayV
  rw [hs, hd]
  split
  · exact hbase
  split
  · exact hbase
  · refine Exc.Rel.bind (P := fun p q => ViewRel a a' p.1 q.1 ∧ p.2 = q.2) ?_ ?_
    · split
      · refine Exc.Rel.bind (hbase.reshape _ _) ?_
        intro x y hxy
        exact ⟨hxy, rfl⟩
      · exact ⟨hbase, rfl⟩
    · rintro ⟨x, c⟩ ⟨y, c'⟩ ⟨hxy, hc⟩
      dsimp only at hxy hc ⊢
      subst hc
      refine Exc.Rel.bind (P := ViewRel a a') ?_ ?_
      · split
        · exact hxy
        · generalize List.mapM (axisOf c) (od ++ c.filter (fun d => d ∉ od)) = z
          cases z
          · rfl
          · exact hxy.transpose _
      · intro x y hxy
        split
        · exact hxy
        rw [hxy.1]
        split
        · exact hxy
        · exact hxy.spread _

end

/-- Values that tell all elements apart. -/
def DataArray.distinct (a : DataArray) : DataArray :=
  { a with arr := { a.arr with get := fun idx => ((Encodable.encode idx : Nat) : Rat) } }

theorem distinct_inj {i j : List Nat} (h : ((Encodable.encode i : Nat) : Rat) = ((Encodable.encode j : Nat) : Rat)) : i = j :=
  Encodable.encode_injective (by exact_mod_cast h)

theorem Exc.Rel.ok_left {α β : Type} {P : α → β → Prop} {x : Except Err α} {y : Except Err β} (h : Exc.Rel P x y) {u : α}
    (hx : x = .ok u) : ∃ w, y = .ok w ∧ P u w := by
  subst hx
  cases y
  · exact h.elim
  · exact ⟨_, rfl, h⟩

theorem getNumpyArrayV_layout {a : DataArray} (hwf : a.WF) {od : List String} {lens : Dict Nat}
    (hsub : ∀ d ∈ a.dims, d ∈ od) (hlens : ∀ d ∈ a.dims, lens.get? d = some (a.len d)) {v : VArray}
    (h : getNumpyArrayV a od lens = .ok v) :
    ∃ v', ViewRel a a.distinct v v' ∧ Layout v'.arr od (lenOr1 lens) a.distinct.at' := by
  obtain ⟨v', hv', hrel⟩ := (getNumpyArrayV_rel (a := a) (a' := a.distinct) rfl rfl od lens).ok_left h
  refine ⟨v', hrel, ?_⟩
  have he := getNumpyArrayV_arrs a.distinct od lens
  rw [hv'] at he
  exact getNumpyArray_ok (a := a.distinct) hwf hsub hlens he.symm

/-- Where the elements of a view are. -/
theorem view_position {a : DataArray} (hwf : a.WF) {od : List String} {lens : Dict Nat}
    (hsub : ∀ d ∈ a.dims, d ∈ od) (hlens : ∀ d ∈ a.dims, lens.get? d = some (a.len d)) {v : VArray}
    (h : getNumpyArrayV a od lens = .ok v) {p : List Nat → List Nat} (hp : v.pos = some p)
    {ix : String → Nat} (hix : ∀ d ∈ od, ix d < lenOr1 lens d) : p (od.map ix) = a.dims.map ix := by
  obtain ⟨v', hrel, hlay⟩ := getNumpyArrayV_layout hwf hsub hlens h
  have h1 := hlay.2 ix hix
  rw [(hrel.2.2 p hp).2] at h1
  exact distinct_inj h1

theorem flat_position {a : DataArray} (hwf : a.WF) {pre wild post : List String} {lens : Dict Nat}
    (hsub : ∀ d ∈ a.dims, d ∈ pre ++ wild ++ post) (hlens : ∀ d ∈ a.dims, lens.get? d = some (a.len d)) {v w : VArray}
    (h : getNumpyArrayV a (pre ++ wild ++ post) lens = .ok v) {c : Bool}
    (hw : flattenWildcardDimsV c v pre.length (pre.length + wild.length) = .ok w)
    {p : List Nat → List Nat} (hp : w.pos = some p)
    {ix : String → Nat} (hix : ∀ d ∈ pre ++ wild ++ post, ix d < lenOr1 lens d) :
    p (pre.map ix ++ [ravel (wild.map (lenOr1 lens)) (wild.map ix)] ++ post.map ix) = a.dims.map ix := by
  obtain ⟨v', hrel, hlay⟩ := getNumpyArrayV_layout hwf hsub hlens h
  obtain ⟨w', hw', hrel'⟩ := (hrel.flatten c pre.length (pre.length + wild.length)).ok_left hw
  have he := flattenV_arrs c v' pre.length (pre.length + wild.length)
  rw [hw'] at he
  have h1 := (flatten_ok hlay he.symm).2 ix hix
  rw [(hrel'.2.2 p hp).2] at h1
  exact distinct_inj h1

/-- When the array is a view. -/
theorem view_isSome {a : DataArray} (hwf : a.WF) {od : List String} {lens : Dict Nat}
    (hsub : ∀ d ∈ a.dims, d ∈ od) {v : VArray} (h : getNumpyArrayV a od lens = .ok v)
    (hlens : ∀ d ∈ a.dims, lens.get? d = some (a.len d)) :
    v.pos.isSome = true ↔ ∀ d ∈ od, d ∉ a.dims → lenOr1 lens d = 1 := by
  have hL : ∀ d ∈ a.dims, lenOr1 lens d = a.len d := fun d hd => by simp [lenOr1, hlens d hd]
  have he := getNumpyArrayV_arrs a od lens
  rw [h] at he
  unfold getNumpyArrayV at h
  split at h
  · rename_i h0
    cases h
    have ho : od = [] := List.eq_nil_of_length_eq_zero h0.2
    subst ho
    simp
  split at h
  · rename_i h1
    cases h
    subst h1
    simp only [Option.isSome_some, true_iff]
    intro d hd hn
    exact absurd hd hn
  · rename_i h0 h1
    obtain ⟨vc, hvc, h⟩ := Exc.bind_ok_iff.1 h
    obtain ⟨x, hx, h⟩ := Exc.bind_ok_iff.1 h
    -- the same without the positions
    have hvc' : (if od.filter (fun d => d ∉ a.dims) ≠ [] then
        a.arr.reshape (List.replicate (od.filter (fun d => d ∉ a.dims)).length 1 ++ a.arr.shape) >>= fun v =>
        (.ok (v, (od.filter (fun d => d ∉ a.dims)).reverse ++ a.dims) : Except Err (NDArray × List String))
      else .ok (a.arr, a.dims)) = .ok (vc.1.arr, vc.2) ∧ vc.1.pos.isSome = true := by
      split at hvc
      · rename_i hm
        rw [if_pos hm]
        obtain ⟨y, hy, hvc⟩ := Exc.bind_ok_iff.1 hvc
        cases hvc
        have h2 := VArray.reshape_arrs false ⟨a.arr, some id⟩
          (List.replicate (od.filter (fun d => d ∉ a.dims)).length 1 ++ a.arr.shape)
        rw [hy] at h2
        rw [← h2]
        refine ⟨rfl, ?_⟩
        unfold VArray.reshape at hy
        obtain ⟨z, _, hy⟩ := Exc.bind_ok_iff.1 hy
        cases hy
        rfl
      · rename_i hm
        rw [if_neg hm]
        cases hvc
        exact ⟨rfl, rfl⟩
    have hm : ∀ d ∈ od.filter (fun d => d ∉ a.dims), d ∉ a.dims := by
      intro d hd; simpa using (List.mem_filter.1 hd).2
    obtain ⟨c1, c2, c3⟩ := expandMissing hwf hm hvc'.1
    dsimp only at c1 c2
    have hcsub : ∀ d ∈ vc.2, d ∈ od := by
      intro d hd
      rw [c1] at hd
      rcases List.mem_append.1 hd with hd | hd
      · exact (List.mem_filter.1 (List.mem_reverse.1 hd)).1
      · exact hsub d hd
    have hextra : vc.2.filter (fun d => d ∉ od) = [] := by
      rw [List.filter_eq_nil_iff]
      intro d hd; simpa using hcsub d hd
    simp only [hextra, List.append_nil] at hx
    have hx' : (if vc.2 = od then .ok vc.1.arr
        else od.mapM (axisOf vc.2) >>= fun axes => vc.1.arr.transpose axes) = .ok x.arr ∧ x.pos.isSome = true := by
      split at hx
      · rename_i hc
        rw [if_pos hc]
        cases hx
        exact ⟨rfl, hvc'.2⟩
      · rename_i hc
        rw [if_neg hc]
        obtain ⟨axes, hax, hx⟩ := Exc.bind_ok_iff.1 hx
        rw [hax]
        have h2 := VArray.transpose_arrs vc.1 axes
        rw [hx] at h2
        refine ⟨h2.symm, ?_⟩
        unfold VArray.transpose at hx
        obtain ⟨z, _, hx⟩ := Exc.bind_ok_iff.1 hx
        cases hx
        simpa using hvc'.2
    obtain ⟨r1, _⟩ := transposeTo c2 hcsub (fun ho => by rw [c1]; exact nodup_current hwf.2 ho) hx'.1
    have hdrop : x.arr.shape.drop od.length = [] := by rw [r1]; simp
    simp only [hdrop, List.append_nil] at h
    have hshape : od.map (fun n => (lens.get? n).getD 1) = x.arr.shape ↔ ∀ d ∈ od, d ∉ a.dims → lenOr1 lens d = 1 := by
      rw [r1, List.map_inj_left]
      constructor
      · intro hh d hd hn
        have := hh d hd
        rw [if_neg hn] at this
        exact this
      · intro hh d hd
        by_cases hn : d ∈ a.dims
        · rw [if_pos hn]; exact hL d hn
        · rw [if_neg hn]; exact hh d hd hn
    split at h
    · rename_i hmiss
      cases h
      simp only [hx'.2, true_iff]
      intro d hd hn
      have : d ∈ od.filter (fun d => d ∉ a.dims) := List.mem_filter.2 ⟨hd, by simpa using hn⟩
      rw [hmiss] at this
      cases this
    split at h
    · rename_i hs
      cases h
      simp only [hx'.2, true_iff]
      exact hshape.1 hs
    · rename_i hs
      unfold VArray.spread at h
      obtain ⟨z, _, h⟩ := Exc.bind_ok_iff.1 h
      cases h
      constructor
      · intro h; cases h
      · intro h; exact absurd (hshape.2 h) hs

theorem flat_isSome {v w : VArray} {c : Bool} {i n : Nat} (h : flattenWildcardDimsV c v i (i + n) = .ok w) :
    w.pos.isSome = true ↔ v.pos.isSome = true ∧ (2 ≤ n → c = false) := by
  have hr : ∀ {c : Bool} {s : List Nat}, v.reshape c s = .ok w → (w.pos.isSome = true ↔ v.pos.isSome = true ∧ c = false) := by
    intro c s h
    unfold VArray.reshape at h
    obtain ⟨z, _, h⟩ := Exc.bind_ok_iff.1 h
    cases h
    cases c <;> simp
  unfold flattenWildcardDimsV at h
  split at h
  · cases h
  split at h
  · cases h
  split at h
  · rw [hr h]
    have : ¬ 2 ≤ n := by omega
    simp [this]
  · rw [hr h]
    have : i + 1 < i + n ↔ 2 ≤ n := by omega
    cases c <;> simp [this]

end Verif

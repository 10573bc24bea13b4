import Verif.Spec.StageErrors
import Verif.Props.RoundingErrors
/-! # Rounding errors of SSPRungeKutta runs: property C114 -/

namespace Verif

variable {fl : Rat → Rat} {conv conv' : DataArray → String → Except Err DataArray} {u : Rat}

/-! ## Means of two numbers -/

theorem near_split {S w E a b ya : Rat} {m : Nat} (h : Near u m ya a (S * w)) (hab : |a - b| ≤ E * w) :
    |ya - b| ≤ (E + ((1 + u) ^ m - 1) * S) * w := by
  have h1 := h.err
  have h2 := abs_add_le (ya - a) (a - b)
  rw [sub_add_sub_cancel] at h2
  calc _ ≤ _ := h2
    _ ≤ ((1 + u) ^ m - 1) * (S * w) + E * w := add_le_add h1 hab
    _ = _ := by ring

theorem half_near (hu : 0 ≤ u) (hfl : Rounds u fl) {a c S : Rat} (ha : |a| ≤ S) (hc : |c| ≤ S) :
    Near u 3 (fl (fl (1 / 2) * fl (a + c))) (1 / 2 * (a + c)) S := by
  have h := (((Near.exact (u := u) a).add (Near.exact c)).round hu hfl).smul hu hfl (1 / 2)
  refine h.mono hu (le_refl _) ?_
  rw [abs_of_pos (by norm_num : (0 : Rat) < 1 / 2)]
  linarith

theorem mean_near (hu : 0 ≤ u) (hfl : Rounds u fl) {α β : Rat} (hα : 0 ≤ α) (hβ : 0 ≤ β) (hαβ : α + β = 1) {a c S : Rat}
    (ha : |a| ≤ S) (hc : |c| ≤ S) :
    Near u 3 (fl (fl (fl α * a) + fl (fl β * c))) (α * a + β * c) S := by
  have h := (((Near.exact (u := u) a).smul hu hfl α).add ((Near.exact c).smul hu hfl β)).round hu hfl
  refine h.mono hu (le_refl _) ?_
  rw [abs_of_nonneg hα, abs_of_nonneg hβ]
  calc α * |a| + β * |c| ≤ α * S + β * S := add_le_add (mul_le_mul_of_nonneg_left ha hα) (mul_le_mul_of_nonneg_left hc hβ)
    _ = S := by rw [← add_mul, hαβ, one_mul]

theorem mean_apart {α β E E' w a b c d : Rat} (hα : 0 ≤ α) (hβ : 0 ≤ β) (h : |a - b| ≤ E * w) (h' : |c - d| ≤ E' * w) :
    |(α * a + β * c) - (α * b + β * d)| ≤ (α * E + β * E') * w := by
  have h1 := abs_add_le (α * (a - b)) (β * (c - d))
  rw [abs_mul, abs_mul, abs_of_nonneg hα, abs_of_nonneg hβ] at h1
  rw [show α * a + β * c - (α * b + β * d) = α * (a - b) + β * (c - d) by ring]
  calc _ ≤ _ := h1
    _ ≤ α * (E * w) + β * (E' * w) := add_le_add (mul_le_mul_of_nonneg_left h hα) (mul_le_mul_of_nonneg_left h' hβ)
    _ = _ := by ring

/-! ## Sums and multiples of states, entry by entry -/

section
variable {V : Type} {A : Arith V}

theorem timeEntryO_time (s : EState V) : Dict.get? (timeEntryO s) "time" = Dict.get? s "time" := by
  unfold timeEntryO
  cases h : Dict.get? s "time" with
  | none => rfl
  | some v => rw [Dict.get?_cons, if_pos rfl]

/-- Every quantity of the first state is added to that of the second; the time is that of the first. -/
theorem addStatesO_each {s1 s2 out : EState V} (hnd : (Dict.keys s1).Nodup) (h : addStatesO A s1 s2 = .ok out) :
    (Dict.keys out).Nodup ∧ (∀ q, q = "time" ∨ q ∉ Dict.keys s1 → Dict.get? out q = Dict.get? s1 q) ∧
    ∀ q ∈ Dict.keys s1, q ≠ "time" → ∃ a b r, Dict.get? s1 q = some (.da a) ∧ Dict.get? s2 q = some (.da b) ∧
      A.add a b = .ok r ∧ Dict.get? out q = some (.da (A.setAttrs r (A.attrs a))) := by
  obtain ⟨h1, h2, h3⟩ := addStatesLoopO_ok hnd (timeEntryO_nodup s1) h
  refine ⟨h1, fun q hq => ?_, h3⟩
  rw [h2 q hq]
  by_cases hqt : q = "time"
  · rw [hqt, timeEntryO_time]
  · rw [timeEntryO_ne _ hqt]
    rcases hq with hq | hq
    · exact absurd hq hqt
    · exact ((Dict.get?_eq_none_iff _ _).2 hq).symm

theorem scaleStateO_each {c : Rat} {s out : EState V} (hnd : (Dict.keys s).Nodup) (h : scaleStateO A c s = .ok out) :
    (Dict.keys out).Nodup ∧ (∀ q, q = "time" ∨ q ∉ Dict.keys s → Dict.get? out q = Dict.get? s q) ∧
    ∀ q ∈ Dict.keys s, q ≠ "time" → ∃ a, Dict.get? s q = some (.da a) ∧
      Dict.get? out q = some (.da (A.setAttrs (A.smul c a) (A.attrs a))) := by
  obtain ⟨h1, h2, h3⟩ := scaleStateLoopO_ok hnd (timeEntryO_nodup s) h
  refine ⟨h1, fun q hq => ?_, h3⟩
  rw [h2 q hq]
  by_cases hqt : q = "time"
  · rw [hqt, timeEntryO_time]
  · rw [timeEntryO_ne _ hqt]
    rcases hq with hq | hq
    · exact absurd hq hqt
    · exact ((Dict.get?_eq_none_iff _ _).2 hq).symm

/-- The keys of a state whose entries were replaced one by one. -/
theorem keys_of_each {s out : EState V} (h1 : ∀ q, q = "time" ∨ q ∉ Dict.keys s → Dict.get? out q = Dict.get? s q)
    (h2 : ∀ q ∈ Dict.keys s, q ≠ "time" → ∃ v, Dict.get? out q = some v) (q : String) :
    q ∈ Dict.keys out ↔ q ∈ Dict.keys s := by
  by_cases hq : q = "time" ∨ q ∉ Dict.keys s
  · have h := h1 q hq
    constructor
    · intro hm
      obtain ⟨v, hv⟩ := Dict.get?_of_mem_keys hm
      rw [h] at hv
      exact Dict.mem_keys_of_get? hv
    · intro hm
      obtain ⟨v, hv⟩ := Dict.get?_of_mem_keys hm
      rw [← h] at hv
      exact Dict.mem_keys_of_get? hv
  · push Not at hq
    obtain ⟨v, hv⟩ := h2 q hq.2 hq.1
    exact ⟨fun _ => hq.2, fun _ => Dict.mem_keys_of_get? hv⟩

end

/-- `multiply(1/2, add(x, z))` (timesteppers.py:69-70) -/
def halfSum (A : Arith DataArray) (x z : EState DataArray) : Except Err (EState DataArray) :=
  addStatesO A x z >>= fun s => scaleStateO A (1 / 2) s

/-- `add(multiply(α, x), multiply(β, z))` (timesteppers.py:60, 62) -/
def weightedSum (A : Arith DataArray) (α β : Rat) (x z : EState DataArray) : Except Err (EState DataArray) :=
  scaleStateO A α x >>= fun x' => scaleStateO A β z >>= fun z' => addStatesO A x' z'

theorem halfSum_each {x z out : EState DataArray} (hx : (Dict.keys x).Nodup)
    (h : halfSum (roundedArith fl conv) x z = .ok out) :
    (Dict.keys out).Nodup ∧ (∀ q, q = "time" ∨ q ∉ Dict.keys x → Dict.get? out q = Dict.get? x q) ∧
    ∀ q ∈ Dict.keys x, q ≠ "time" → ∃ a c r, Dict.get? x q = some (.da a) ∧ Dict.get? z q = some (.da c) ∧
      Dict.get? out q = some (.da r) ∧ ∀ ix, r.at' ix = fl (fl (1 / 2) * fl (a.at' ix + c.at' ix)) := by
  obtain ⟨s, hs, h⟩ := Exc.bind_ok_iff.1 h
  obtain ⟨n1, a1, b1⟩ := addStatesO_each hx hs
  obtain ⟨n2, a2, b2⟩ := scaleStateO_each n1 h
  have hk := keys_of_each a1 fun q hq hqt => by obtain ⟨_, _, _, _, _, _, h⟩ := b1 q hq hqt; exact ⟨_, h⟩
  refine ⟨n2, fun q hq => ?_, fun q hq hqt => ?_⟩
  · rw [a2 q (hq.imp id fun hn hm => hn ((hk q).1 hm)), a1 q hq]
  · obtain ⟨a, c, r, ha, hc, hr, ho⟩ := b1 q hq hqt
    obtain ⟨v, hv, ho'⟩ := b2 q ((hk q).2 hq) hqt
    rw [ho] at hv
    cases hv
    refine ⟨a, c, _, ha, hc, ho', fun ix => ?_⟩
    obtain ⟨_, _, r3⟩ := roundedAdd_ok hr
    show fl (fl (1 / 2) * r.at' ix) = _
    rw [r3 ix]

theorem weightedSum_each {α β : Rat} {x z out : EState DataArray} (hx : (Dict.keys x).Nodup) (hz : (Dict.keys z).Nodup)
    (h : weightedSum (roundedArith fl conv) α β x z = .ok out) :
    (Dict.keys out).Nodup ∧ (∀ q, q = "time" ∨ q ∉ Dict.keys x → Dict.get? out q = Dict.get? x q) ∧
    ∀ q ∈ Dict.keys x, q ≠ "time" → ∃ a c r, Dict.get? x q = some (.da a) ∧ Dict.get? z q = some (.da c) ∧
      Dict.get? out q = some (.da r) ∧ ∀ ix, r.at' ix = fl (fl (fl α * a.at' ix) + fl (fl β * c.at' ix)) := by
  obtain ⟨x', hx', h⟩ := Exc.bind_ok_iff.1 h
  obtain ⟨z', hz', h⟩ := Exc.bind_ok_iff.1 h
  obtain ⟨n1, a1, b1⟩ := scaleStateO_each hx hx'
  obtain ⟨n2, a2, b2⟩ := scaleStateO_each hz hz'
  obtain ⟨n3, a3, b3⟩ := addStatesO_each n1 h
  have hk := keys_of_each a1 fun q hq hqt => by obtain ⟨_, _, h⟩ := b1 q hq hqt; exact ⟨_, h⟩
  have hk2 := keys_of_each a2 fun q hq hqt => by obtain ⟨_, _, h⟩ := b2 q hq hqt; exact ⟨_, h⟩
  refine ⟨n3, fun q hq => ?_, fun q hq hqt => ?_⟩
  · rw [a3 q (hq.imp id fun hn hm => hn ((hk q).1 hm)), a1 q hq]
  · obtain ⟨v, y, r, hv, hy, hr, ho⟩ := b3 q ((hk q).2 hq) hqt
    obtain ⟨a, ha, ho1⟩ := b1 q hq hqt
    obtain ⟨c, hc, ho2⟩ := b2 q ((hk2 q).1 (Dict.mem_keys_of_get? hy)) hqt
    rw [ho1] at hv
    rw [ho2] at hy
    cases hv
    cases hy
    refine ⟨a, c, _, ha, hc, ho, fun ix => ?_⟩
    obtain ⟨_, _, r3⟩ := roundedAdd_ok hr
    show r.at' ix = _
    rw [r3 ix]
    rfl

section
variable {I : (String → Nat) → Prop} {w : String → Rat}

/-- Two states whose entries are means of entries of states that are close. -/
theorem means_within (hw : ∀ q, 0 ≤ w q) (hu : 0 ≤ u) {f : (Rat → Rat) → Rat → Rat → Rat} {α β E E' SX S : Rat}
    (hα : 0 ≤ α) (hβ : 0 ≤ β) (hαβ : α + β = 1) (hEE : E ≤ E') (hSX : SX ≤ S) (hS0 : 0 ≤ S)
    (hf : ∀ {a c S}, |a| ≤ S → |c| ≤ S → Near u 3 (f fl a c) (α * a + β * c) S)
    (hid : ∀ a c, f id a c = α * a + β * c)
    {x y z v out out' : EState DataArray} (hxy : CloseStates I w E x y) (hzv : CloseStates I w E' z v)
    (hX : StateSized I w SX x) (hZ : StateSized I w S z)
    (h1 : ∀ q, q = "time" ∨ q ∉ Dict.keys x → Dict.get? out q = Dict.get? x q)
    (h2 : ∀ q ∈ Dict.keys x, q ≠ "time" → ∃ a c r, Dict.get? x q = some (.da a) ∧ Dict.get? z q = some (.da c) ∧
      Dict.get? out q = some (.da r) ∧ ∀ ix, r.at' ix = f fl (a.at' ix) (c.at' ix))
    (h1' : ∀ q, q = "time" ∨ q ∉ Dict.keys y → Dict.get? out' q = Dict.get? y q)
    (h2' : ∀ q ∈ Dict.keys y, q ≠ "time" → ∃ a c r, Dict.get? y q = some (.da a) ∧ Dict.get? v q = some (.da c) ∧
      Dict.get? out' q = some (.da r) ∧ ∀ ix, r.at' ix = f id (a.at' ix) (c.at' ix)) :
    CloseStates I w (α * E + β * E' + ((1 + u) ^ 3 - 1) * S) out out' ∧ StateSized I w ((1 + u) ^ 3 * S) out := by
  have hk := keys_of_each h1 fun q hq hqt => by obtain ⟨_, _, _, _, _, h, _⟩ := h2 q hq hqt; exact ⟨_, h⟩
  have hk' := keys_of_each h1' fun q hq hqt => by obtain ⟨_, _, _, _, _, h, _⟩ := h2' q hq hqt; exact ⟨_, h⟩
  have hg : 0 ≤ (1 + u) ^ 3 - 1 := by have := one_le_pow hu 3; linarith
  have hEm : E ≤ α * E + β * E' + ((1 + u) ^ 3 - 1) * S := by
    have e1 : E = α * E + β * E := by rw [← add_mul, hαβ, one_mul]
    have e2 := mul_le_mul_of_nonneg_left hEE hβ
    have e3 := mul_nonneg hg hS0
    linarith
  have hSm : S ≤ (1 + u) ^ 3 * S := by nlinarith
  refine ⟨⟨fun q => by rw [hk, hk', hxy.keys], fun q a b ha hb ix hix => ?_⟩, fun q a ha ix hix => ?_⟩
  · by_cases hq : q = "time" ∨ q ∉ Dict.keys x
    · rw [h1 q hq] at ha
      rw [h1' q (hq.imp id fun h hm => h ((hxy.keys q).2 hm))] at hb
      exact le_trans (hxy.close q a b ha hb ix hix) (mul_le_mul_of_nonneg_right hEm (hw q))
    · push Not at hq
      obtain ⟨a1, c1, r, ha1, hc1, hr, hv⟩ := h2 q hq.2 hq.1
      obtain ⟨b1, d1, r', hb1, hd1, hr', hv'⟩ := h2' q ((hxy.keys q).1 hq.2) hq.1
      rw [ha] at hr
      rw [hb] at hr'
      cases hr
      cases hr'
      rw [hv ix, hv' ix, hid]
      have s1 : |a1.at' ix| ≤ S * w q := le_trans (hX q a1 ha1 ix hix) (mul_le_mul_of_nonneg_right hSX (hw q))
      exact near_split (hf s1 (hZ q c1 hc1 ix hix))
        (mean_apart hα hβ (hxy.close q a1 b1 ha1 hb1 ix hix) (hzv.close q c1 d1 hc1 hd1 ix hix))
  · by_cases hq : q = "time" ∨ q ∉ Dict.keys x
    · rw [h1 q hq] at ha
      exact le_trans (hX q a ha ix hix) (mul_le_mul_of_nonneg_right (le_trans hSX hSm) (hw q))
    · push Not at hq
      obtain ⟨a1, c1, r, ha1, hc1, hr, hv⟩ := h2 q hq.2 hq.1
      rw [ha] at hr
      cases hr
      rw [hv ix]
      have s1 : |a1.at' ix| ≤ S * w q := le_trans (hX q a1 ha1 ix hix) (mul_le_mul_of_nonneg_right hSX (hw q))
      have := (hf s1 (hZ q c1 hc1 ix hix)).grown
      rwa [← mul_assoc] at this

/-! ## Stages -/

theorem StateSized.mono (hw : ∀ q, 0 ≤ w q) {S S' : Rat} (hS : S ≤ S') {x : EState DataArray} (h : StateSized I w S x) :
    StateSized I w S' x := fun q a ha ix hix => le_trans (h q a ha ix hix) (mul_le_mul_of_nonneg_right hS (hw q))

theorem StateSized.copy (hw : ∀ q, 0 ≤ w q) {S S' : Rat} (hS : S ≤ S') {x n : EState DataArray} (h : StateSized I w S x)
    (hn : StateSized I w S' n) : StateSized I w S' (copyUntouchedO x n) := by
  obtain ⟨_, c2, c3⟩ := copyUntouchedO_spec x n
  intro q a ha ix hix
  by_cases hq : q ∈ Dict.keys n
  · rw [c2 q hq] at ha
    exact hn q a ha ix hix
  · rw [c3 q hq] at ha
    exact h.mono hw hS q a ha ix hix

theorem abFormula_one (x dt : Rat) (p : Nat → Rat) : abFormula 1 x dt p = x + dt * p 0 := by simp [abFormula, abCoef]

theorem abSize_one (x dt : Rat) (p : Nat → Rat) : abSize 1 x dt p = |x| + |dt| * |p 0| := by simp [abSize, abCoef]

theorem CloseStates.mono (hw : ∀ q, 0 ≤ w q) {E E' : Rat} (hE : E ≤ E') {x y : EState DataArray}
    (h : CloseStates I w E x y) : CloseStates I w E' x y :=
  ⟨h.keys, fun q a b ha hb ix hix => le_trans (h.close q a b ha hb ix hix) (mul_le_mul_of_nonneg_right hE (hw q))⟩

/-- What a call of the stepper of a stage that returns did. -/
theorem eulerCallO_ok {σ V : Type} {A : Arith V} {p : ProgOver σ V} {ab ab' : ABOver V} {s s' : σ}
    {x new : EState V} {dt : Int} {diag : Dict V} (ho : ab.order = 1) (hh : ab.hist = [])
    (h : eulerCallO A p ab s x dt = (ab', s', .ok (diag, new))) :
    ab'.order = 1 ∧ ab'.hist = [] ∧ s' = (p s x dt).1 ∧ ∃ r t n, (p s x dt).2 = .ok r ∧
      convertTendenciesO A x r.1 = .ok t ∧ performStepO A 1 [t] x dt = .ok n ∧
      new = copyUntouchedO x (copyUntouchedO x n) := by
  unfold eulerCallO at h
  rcases hc : ABOver.call A p ab s x dt with ⟨ab1, s1, e | ⟨d, m⟩⟩
  · rw [hc] at h; cases h
  rw [hc] at h
  dsimp only at h
  simp only [Exc.ok_bind, Prod.mk.injEq, Except.ok.injEq] at h
  obtain ⟨rfl, rfl, _, rfl⟩ := h
  obtain ⟨r, t, n, hr, ht, hn, rfl, _, hs, h1, _, h2⟩ := abOver_ok hc
  rw [hh, ho, List.nil_append] at hn
  refine ⟨by rw [h1, ho], ?_, hs, r, t, n, hr, ht, hn, rfl⟩
  rw [h2, hh, ho]
  rfl

section
variable {σ σ' : Type} {M : σ → σ' → Prop} {p : ProgOver σ DataArray} {p' : ProgOver σ' DataArray}
  {L e Y T : Rat} {dt : Int}

/-- A stage of two runs. -/
theorem euler_within (hu : 0 ≤ u) (hfl : Rounds u fl) (hw : ∀ q, 0 ≤ w q) (hL : 0 ≤ L) (he : 0 ≤ e) (hT : 0 ≤ T)
    (hp : Approximates I w Y L e M (roundedArith fl conv) (roundedArith id conv') p p')
    (hTb : TendBounded I w Y T (roundedArith fl conv) p dt)
    {ab ab1 ab' ab1' : ABOver DataArray} {s s1 : σ} {s' s1' : σ'} {x y n n' : EState DataArray} {d d' : Dict DataArray}
    (ho : ab.order = 1) (hh : ab.hist = []) (ho' : ab'.order = 1) (hh' : ab'.hist = []) (hM : M s s') {E S : Rat}
    (hE : 0 ≤ E) (hS0 : 0 ≤ S) (hSY : S ≤ Y) (hxy : CloseStates I w E x y) (hX : StateSized I w S x)
    (h : eulerCallO (roundedArith fl conv) p ab s x dt = (ab1, s1, .ok (d, n)))
    (h' : eulerCallO (roundedArith id conv') p' ab' s' y dt = (ab1', s1', .ok (d', n'))) :
    CloseStates I w ((1 + |seconds dt| * L) * E + eulerError u e Y T dt) n n' ∧
      StateSized I w ((1 + u) ^ 5 * (S + |seconds dt| * T)) n ∧ M s1 s1' := by
  obtain ⟨_, _, hs1, r, t, m, hr, ht, hm, rfl⟩ := eulerCallO_ok ho hh h
  obtain ⟨_, _, hs1', r', t', m', hr', ht', hm', rfl⟩ := eulerCallO_ok ho' hh' h'
  have hXY := hX.mono hw hSY
  have htt : TendWithin I w (L * E + e) t t' := hp.tend s s' x y dt E r r' t t' hM hxy hE hXY hr hr' ht ht'
  have hTt : TendSized I w T t := hTb s x r t hXY hr ht
  obtain ⟨k, hk, _, _, hkeys, hs⟩ := performStepO_spec hm
  obtain ⟨k', hk', _, _, hkeys', hs'⟩ := performStepO_spec hm'
  have hk1 : k = 1 := hk
  have hk1' : k' = 1 := hk'
  subst hk1
  subst hk1'
  have hkm : Dict.keys m = Dict.keys m' := by
    rw [hkeys, hkeys']
    exact htt.keys
  have hdt := abs_nonneg (seconds dt)
  have hg : 0 ≤ (1 + u) ^ 5 - 1 := by have := one_le_pow hu 5; linarith
  have hST : 0 ≤ S + |seconds dt| * T := add_nonneg hS0 (mul_nonneg hdt hT)
  have hY0 : 0 ≤ Y := le_trans hS0 hSY
  have hEE : E ≤ (1 + |seconds dt| * L) * E + eulerError u e Y T dt := by
    unfold eulerError
    have i1 := mul_nonneg (mul_nonneg hdt hL) hE
    have i2 := mul_nonneg hdt he
    have i3 := mul_nonneg hg (add_nonneg hY0 (mul_nonneg hdt hT))
    linarith
  have hSS : S ≤ (1 + u) ^ 5 * (S + |seconds dt| * T) := by
    have i1 := mul_nonneg hg hST
    have i2 := mul_nonneg hdt hT
    linarith
  have near : ∀ q a ix, I ix → Dict.get? m q = some (.da a) → ∃ xa, Dict.get? x q = some (.da xa) ∧
      Near u 5 (a.at' ix) (xa.at' ix + seconds dt * tval t q ix) ((S + |seconds dt| * T) * w q) := by
    intro q a ix hix ha
    obtain ⟨xa, ra, hxa, hra, _, _, hva⟩ := hs q (Dict.mem_keys_of_get? ha)
    rw [ha] at hra
    cases hra
    refine ⟨xa, hxa, ?_⟩
    have hn := roundedAB_near hu hfl (le_refl 1) (by omega) (xa.at' ix) (seconds dt)
      (fun j => tval ([t].reverse.getD j []) q ix)
    rw [← hva ix, abFormula_one, abSize_one] at hn
    refine hn.mono hu (le_refl _) ?_
    have i1 := hX q xa hxa ix hix
    have i2 := mul_le_mul_of_nonneg_left (hTt q ix hix) hdt
    calc |xa.at' ix| + |seconds dt| * |tval t q ix| ≤ S * w q + |seconds dt| * (T * w q) := add_le_add i1 i2
      _ = _ := by ring
  have hstep : CloseStates I w ((1 + |seconds dt| * L) * E + eulerError u e Y T dt) m m' := by
    refine ⟨fun q => by rw [hkm], fun q a b ha hb ix hix => ?_⟩
    obtain ⟨xa, hxa, hn⟩ := near q a ix hix ha
    obtain ⟨xb, rb, hxb, hrb, _, _, hvb⟩ := hs' q (Dict.mem_keys_of_get? hb)
    rw [hb] at hrb
    cases hrb
    rw [hvb ix, roundedAB_id (le_refl 1) (by omega), abFormula_one]
    have hlin : |(xa.at' ix + seconds dt * tval t q ix) - (xb.at' ix + seconds dt * tval t' q ix)| ≤
        (E + |seconds dt| * (L * E + e)) * w q := by
      have i1 := hxy.close q xa xb hxa hxb ix hix
      have i2 := mul_le_mul_of_nonneg_left (htt.close q ix hix) hdt
      have i3 := abs_add_le (xa.at' ix - xb.at' ix) (seconds dt * (tval t q ix - tval t' q ix))
      rw [abs_mul] at i3
      rw [show xa.at' ix + seconds dt * tval t q ix - (xb.at' ix + seconds dt * tval t' q ix) =
        xa.at' ix - xb.at' ix + seconds dt * (tval t q ix - tval t' q ix) by ring]
      calc _ ≤ _ := i3
        _ ≤ E * w q + |seconds dt| * ((L * E + e) * w q) := add_le_add i1 i2
        _ = _ := by ring
    refine le_trans (near_split hn hlin) (mul_le_mul_of_nonneg_right ?_ (hw q))
    unfold eulerError
    have i1 : ((1 + u) ^ 5 - 1) * (S + |seconds dt| * T) ≤ ((1 + u) ^ 5 - 1) * (Y + |seconds dt| * T) :=
      mul_le_mul_of_nonneg_left (by linarith) hg
    linarith
  have hsz : StateSized I w ((1 + u) ^ 5 * (S + |seconds dt| * T)) m := by
    intro q a ha ix hix
    obtain ⟨xa, hxa, hn⟩ := near q a ix hix ha
    have := hn.grown
    rwa [← mul_assoc] at this
  refine ⟨hxy.copy hw hEE (hxy.copy hw hEE hstep), hX.copy hw hSS (hX.copy hw hSS hsz), ?_⟩
  rw [hs1, hs1']
  exact hp.world s s' x y dt E hM hxy

end

/-! ## Steps -/

theorem halfSum_within (hw : ∀ q, 0 ≤ w q) (hu : 0 ≤ u) (hfl : Rounds u fl) {E E' SX S : Rat} (hEE : E ≤ E')
    (hSX : SX ≤ S) (hS0 : 0 ≤ S) {x y z v out out' : EState DataArray} (hx : (Dict.keys x).Nodup)
    (hy : (Dict.keys y).Nodup) (hxy : CloseStates I w E x y) (hzv : CloseStates I w E' z v) (hX : StateSized I w SX x)
    (hZ : StateSized I w S z) (h : halfSum (roundedArith fl conv) x z = .ok out)
    (h' : halfSum (roundedArith id conv') y v = .ok out') :
    CloseStates I w (1 / 2 * E + 1 / 2 * E' + ((1 + u) ^ 3 - 1) * S) out out' ∧
      (Dict.keys out).Nodup ∧ (Dict.keys out').Nodup := by
  obtain ⟨n1, a1, b1⟩ := halfSum_each hx h
  obtain ⟨n2, a2, b2⟩ := halfSum_each hy h'
  refine ⟨(means_within hw hu (f := fun fl a c => fl (fl (1 / 2) * fl (a + c))) (fl := fl) (by norm_num) (by norm_num)
    (by norm_num) hEE hSX hS0 ?_ ?_ hxy hzv hX hZ a1 b1 a2 b2).1, n1, n2⟩
  · intro a c S ha hc
    have := half_near hu hfl ha hc
    rwa [mul_add] at this
  · intro a c
    simp only [id]
    ring

theorem weightedSum_within (hw : ∀ q, 0 ≤ w q) (hu : 0 ≤ u) (hfl : Rounds u fl) {α β : Rat} (hα : 0 ≤ α) (hβ : 0 ≤ β)
    (hαβ : α + β = 1) {E E' SX S : Rat} (hEE : E ≤ E') (hSX : SX ≤ S) (hS0 : 0 ≤ S)
    {x y z v out out' : EState DataArray} (hx : (Dict.keys x).Nodup) (hy : (Dict.keys y).Nodup)
    (hz : (Dict.keys z).Nodup) (hv : (Dict.keys v).Nodup) (hxy : CloseStates I w E x y) (hzv : CloseStates I w E' z v)
    (hX : StateSized I w SX x) (hZ : StateSized I w S z) (h : weightedSum (roundedArith fl conv) α β x z = .ok out)
    (h' : weightedSum (roundedArith id conv') α β y v = .ok out') :
    CloseStates I w (α * E + β * E' + ((1 + u) ^ 3 - 1) * S) out out' ∧ StateSized I w ((1 + u) ^ 3 * S) out ∧
      (Dict.keys out).Nodup ∧ (Dict.keys out').Nodup := by
  obtain ⟨n1, a1, b1⟩ := weightedSum_each hx hz h
  obtain ⟨n2, a2, b2⟩ := weightedSum_each hy hv h'
  obtain ⟨h1, h2⟩ := means_within hw hu (f := fun fl a c => fl (fl (fl α * a) + fl (fl β * c))) (fl := fl) hα hβ
    hαβ hEE hSX hS0 (fun ha hc => mean_near hu hfl hα hβ hαβ ha hc) (fun a c => rfl) hxy hzv hX hZ a1 b1 a2 b2
  exact ⟨h1, h2, n1, n2⟩

theorem ssprk2O_ok {σ : Type} {A : Arith DataArray} {p : ProgOver σ DataArray} {ab ab' : ABOver DataArray} {s s' : σ}
    {x new : EState DataArray} {dt : Int} {diag : Dict DataArray}
    (h : ssprk2O A p ab s x dt = (ab', s', .ok (diag, new))) :
    ∃ ab1 s1 x1 d2 x2, eulerCallO A p ab s x dt = (ab1, s1, .ok (diag, x1)) ∧
      eulerCallO A p ab1 s1 x1 dt = (ab', s', .ok (d2, x2)) ∧ halfSum A x x2 = .ok new := by
  unfold ssprk2O at h
  rcases h1 : eulerCallO A p ab s x dt with ⟨ab1, s1, e | ⟨d1, x1⟩⟩
  · rw [h1] at h; cases h
  rw [h1] at h
  dsimp only at h
  rcases h2 : eulerCallO A p ab1 s1 x1 dt with ⟨ab2, s2, e | ⟨d2, x2⟩⟩
  · rw [h2] at h; cases h
  rw [h2] at h
  dsimp only at h
  simp only [Prod.mk.injEq] at h
  obtain ⟨rfl, rfl, h⟩ := h
  obtain ⟨y, hy, h⟩ := Exc.bind_ok_iff.1 h
  obtain ⟨z, hz, h⟩ := Exc.bind_ok_iff.1 h
  simp only [Except.ok.injEq, Prod.mk.injEq] at h
  obtain ⟨rfl, rfl⟩ := h
  exact ⟨ab1, s1, x1, d2, x2, rfl, h2, Exc.bind_ok_iff.2 ⟨y, hy, hz⟩⟩

theorem ssprk3O_ok {σ : Type} {A : Arith DataArray} {p : ProgOver σ DataArray} {ab ab' : ABOver DataArray} {s s' : σ}
    {x new : EState DataArray} {dt : Int} {diag : Dict DataArray}
    (h : ssprk3O A p ab s x dt = (ab', s', .ok (diag, new))) :
    ∃ ab1 s1 x1 ab2 s2 d2 x15 x2 d3 x25, eulerCallO A p ab s x dt = (ab1, s1, .ok (diag, x1)) ∧
      eulerCallO A p ab1 s1 x1 dt = (ab2, s2, .ok (d2, x15)) ∧ weightedSum A (3 / 4) (1 / 4) x x15 = .ok x2 ∧
      eulerCallO A p ab2 s2 x2 dt = (ab', s', .ok (d3, x25)) ∧ weightedSum A (1 / 3) (2 / 3) x x25 = .ok new := by
  unfold ssprk3O at h
  rcases h1 : eulerCallO A p ab s x dt with ⟨ab1, s1, e | ⟨d1, x1⟩⟩
  · rw [h1] at h; cases h
  rw [h1] at h
  dsimp only at h
  rcases h2 : eulerCallO A p ab1 s1 x1 dt with ⟨ab2, s2, e | ⟨d2, x15⟩⟩
  · rw [h2] at h; cases h
  rw [h2] at h
  dsimp only at h
  cases hm : (scaleStateO A (3 / 4) x >>= fun x => scaleStateO A (1 / 4) x15 >>= fun y => addStatesO A x y) with
  | error e => rw [hm] at h; cases h
  | ok x2 =>
    rw [hm] at h
    dsimp only at h
    rcases h3 : eulerCallO A p ab2 s2 x2 dt with ⟨ab3, s3, e | ⟨d3, x25⟩⟩
    · rw [h3] at h; cases h
    rw [h3] at h
    dsimp only at h
    simp only [Prod.mk.injEq] at h
    obtain ⟨rfl, rfl, h⟩ := h
    obtain ⟨y, hy, h⟩ := Exc.bind_ok_iff.1 h
    obtain ⟨z, hz, h⟩ := Exc.bind_ok_iff.1 h
    obtain ⟨o, ho, h⟩ := Exc.bind_ok_iff.1 h
    simp only [Except.ok.injEq, Prod.mk.injEq] at h
    obtain ⟨rfl, rfl⟩ := h
    exact ⟨ab1, s1, x1, ab2, s2, d2, x15, x2, d3, x25, rfl, h2, hm, h3,
      Exc.bind_ok_iff.2 ⟨y, hy, Exc.bind_ok_iff.2 ⟨z, hz, ho⟩⟩⟩

section
variable {σ σ' : Type} {M : σ → σ' → Prop} {p : ProgOver σ DataArray} {p' : ProgOver σ' DataArray}
  {L e X T : Rat} {dt : Int}

/-- the sizes of the values in the stages -/
theorem stage_sizes (hu : 0 ≤ u) {a b : Nat} {c c' d : Rat} (hd : 0 ≤ d) (hX : 0 ≤ X) (ha : a ≤ b) (hc0 : 0 ≤ c)
    (hc : c ≤ c') : (1 + u) ^ a * (X + c * d) ≤ (1 + u) ^ b * (X + c' * d) := by
  have h1 := pow_mono hu ha
  have h2 : X + c * d ≤ X + c' * d := by have := mul_le_mul_of_nonneg_right hc hd; linarith
  exact mul_le_mul h1 h2 (add_nonneg hX (mul_nonneg hc0 hd)) (le_trans zero_le_one (one_le_pow hu b))

theorem grow_size (hu : 0 ≤ u) {a : Nat} {c d : Rat} (hd : 0 ≤ d) :
    (1 + u) ^ 5 * ((1 + u) ^ a * (X + c * d) + d) ≤ (1 + u) ^ (a + 5) * (X + (c + 1) * d) := by
  have h1 := one_le_pow hu a
  have h2 := one_le_pow hu 5
  have h3 : (1 + u) ^ a * (X + c * d) + d ≤ (1 + u) ^ a * (X + (c + 1) * d) := by nlinarith
  calc _ ≤ (1 + u) ^ 5 * ((1 + u) ^ a * (X + (c + 1) * d)) := mul_le_mul_of_nonneg_left h3 (by linarith)
    _ = _ := by rw [pow_add]; ring

/-- One step of two runs of an SSPRungeKutta: how far apart the new states are. -/
theorem ssprk_within (three : Bool) (hu : 0 ≤ u) (hfl : Rounds u fl) (hw : ∀ q, 0 ≤ w q) (hL : 0 ≤ L) (he : 0 ≤ e)
    (hX0 : 0 ≤ X) (hT : 0 ≤ T)
    (hp : Approximates I w (stageSize u X T dt) L e M (roundedArith fl conv) (roundedArith id conv') p p')
    (hTb : TendBounded I w (stageSize u X T dt) T (roundedArith fl conv) p dt) (hd : GivesDicts p) (hd' : GivesDicts p')
    {ab ab1 ab' ab1' : ABOver DataArray} {s s1 : σ} {s' s1' : σ'} {x y n n' : EState DataArray} {d d' : Dict DataArray}
    (ho : ab.order = 1) (hh : ab.hist = []) (ho' : ab'.order = 1) (hh' : ab'.hist = []) (hM : M s s') {E : Rat}
    (hE : 0 ≤ E) (hx : (Dict.keys x).Nodup) (hy : (Dict.keys y).Nodup) (hxy : CloseStates I w E x y)
    (hX : StateSized I w X x)
    (h : ssprkCallO (roundedArith fl conv) p three ab s x dt = (ab1, s1, .ok (d, n)))
    (h' : ssprkCallO (roundedArith id conv') p' three ab' s' y dt = (ab1', s1', .ok (d', n'))) :
    CloseStates I w (stageGrowth three (|seconds dt| * L) * E + stageError three u L e (stageSize u X T dt) T dt) n n' ∧
      (Dict.keys n).Nodup ∧ (Dict.keys n').Nodup ∧ M s1 s1' ∧ (ab1.order = 1 ∧ ab1.hist = []) ∧
      ab1'.order = 1 ∧ ab1'.hist = [] := by
  have hdT : 0 ≤ |seconds dt| * T := mul_nonneg (abs_nonneg _) hT
  have hz : 0 ≤ |seconds dt| * L := mul_nonneg (abs_nonneg _) hL
  have hnil : ∀ v ∈ ([] : List (Dict DataArray)), (Dict.keys v).Nodup := fun v hv => by cases hv
  have hYdef : stageSize u X T dt = (1 + u) ^ 18 * (X + 3 * (|seconds dt| * T)) := rfl
  generalize stageSize u X T dt = Y at *
  have sz : ∀ {a : Nat} {c : Rat}, a ≤ 18 → 0 ≤ c → c ≤ 3 → (1 + u) ^ a * (X + c * (|seconds dt| * T)) ≤ Y := by
    intro a c ha h0 h3
    rw [hYdef]
    exact stage_sizes hu hdT hX0 ha h0 h3
  have nn : ∀ {a : Nat} {c : Rat}, 0 ≤ c → 0 ≤ (1 + u) ^ a * (X + c * (|seconds dt| * T)) := by
    intro a c h0
    exact mul_nonneg (le_trans zero_le_one (one_le_pow hu a)) (add_nonneg hX0 (mul_nonneg h0 hdT))
  have hXe : X = (1 + u) ^ 0 * (X + 0 * (|seconds dt| * T)) := by rw [pow_zero, one_mul, zero_mul, add_zero]
  have hXY : X ≤ Y := by
    rw [hXe]
    exact sz (by omega) (le_refl _) (by norm_num)
  have hY0 : 0 ≤ Y := le_trans hX0 hXY
  have hg3 : 0 ≤ (1 + u) ^ 3 - 1 := by have := one_le_pow hu 3; linarith
  have hg3Y : 0 ≤ ((1 + u) ^ 3 - 1) * Y := mul_nonneg hg3 hY0
  have hG : 0 ≤ eulerError u e Y T dt := by
    unfold eulerError
    have := one_le_pow hu 5
    exact add_nonneg (mul_nonneg (abs_nonneg _) he) (mul_nonneg (by linarith) (add_nonneg hY0 hdT))
  unfold stageError stageGrowth
  generalize hzd : |seconds dt| * L = z at *
  have hzE : 0 ≤ z * E := mul_nonneg hz hE
  have two : ∀ {x1 x2 y1 y2 : EState DataArray} {aba abb aba' abb' : ABOver DataArray} {sa sb : σ} {sa' sb' : σ'}
      {d1 d2 d1' d2' : Dict DataArray},
      eulerCallO (roundedArith fl conv) p ab s x dt = (aba, sa, .ok (d1, x1)) →
      eulerCallO (roundedArith fl conv) p aba sa x1 dt = (abb, sb, .ok (d2, x2)) →
      eulerCallO (roundedArith id conv') p' ab' s' y dt = (aba', sa', .ok (d1', y1)) →
      eulerCallO (roundedArith id conv') p' aba' sa' y1 dt = (abb', sb', .ok (d2', y2)) →
      CloseStates I w ((1 + z) * ((1 + z) * E + eulerError u e Y T dt) + eulerError u e Y T dt) x2 y2 ∧
      StateSized I w ((1 + u) ^ 10 * (X + 2 * (|seconds dt| * T))) x2 ∧ M sb sb' ∧
      (Dict.keys x2).Nodup ∧ (Dict.keys y2).Nodup ∧ (abb.order = 1 ∧ abb.hist = []) ∧
      abb'.order = 1 ∧ abb'.hist = [] := by
    intro x1 x2 y1 y2 aba abb aba' abb' sa sb sa' sb' d1 d2 d1' d2' e1 e2 e1' e2'
    obtain ⟨o1, i1, _⟩ := eulerCallO_ok ho hh e1
    obtain ⟨o2, i2, _⟩ := eulerCallO_ok o1 i1 e2
    obtain ⟨o1', i1', _⟩ := eulerCallO_ok ho' hh' e1'
    obtain ⟨o2', i2', _⟩ := eulerCallO_ok o1' i1' e2'
    obtain ⟨c1, s1, m1⟩ := euler_within hu hfl hw hL he hT hp hTb ho hh ho' hh' hM hE hX0 hXY hxy hX e1 e1'
    have hE1 : 0 ≤ (1 + z) * E + eulerError u e Y T dt :=
      add_nonneg (mul_nonneg (add_nonneg zero_le_one hz) hE) hG
    rw [hzd] at c1
    have s1' : StateSized I w ((1 + u) ^ 5 * (X + 1 * (|seconds dt| * T))) x1 := by rwa [one_mul]
    obtain ⟨c2, s2, m2⟩ := euler_within hu hfl hw hL he hT hp hTb o1 i1 o1' i1' m1 hE1 (nn (by norm_num))
      (sz (by omega) (by norm_num) (by norm_num)) c1 s1' e2 e2'
    rw [hzd] at c2
    refine ⟨c2, s2.mono hw ?_, m2, (eulerCallO_nodup hd (by rw [i1]; exact hnil) e2).2,
      (eulerCallO_nodup hd' (by rw [i1']; exact hnil) e2').2, ⟨o2, i2⟩, o2', i2'⟩
    have := grow_size (X := X) hu (a := 5) (c := 1) hdT
    rwa [show (1 : Rat) + 1 = 2 by norm_num] at this
  have hzG : 0 ≤ z * eulerError u e Y T dt := mul_nonneg hz hG
  have hE2 : E ≤ (1 + z) * ((1 + z) * E + eulerError u e Y T dt) + eulerError u e Y T dt := by
    have := mul_nonneg hz hzE
    nlinarith
  have hXS : X ≤ (1 + u) ^ 10 * (X + 2 * (|seconds dt| * T)) := by
    conv_lhs => rw [hXe]
    exact stage_sizes hu hdT hX0 (by omega) (le_refl _) (by norm_num)
  have g3 : ∀ {S : Rat}, S ≤ Y → ((1 + u) ^ 3 - 1) * S ≤ ((1 + u) ^ 3 - 1) * Y := fun hS =>
    mul_le_mul_of_nonneg_left hS hg3
  unfold ssprkCallO at h h'
  cases three with
  | false =>
    simp only [Bool.false_eq_true, if_false] at h h' ⊢
    obtain ⟨aba, sa, x1, d2, x2, e1, e2, hn⟩ := ssprk2O_ok h
    obtain ⟨aba', sa', y1, d2', y2, e1', e2', hn'⟩ := ssprk2O_ok h'
    obtain ⟨c2, s2, m2, _, _, q1, q2⟩ := two e1 e2 e1' e2'
    obtain ⟨c, k1, k2⟩ := halfSum_within hw hu hfl hE2 hXS (nn (by norm_num)) hx hy hxy c2 hX s2 hn hn'
    refine ⟨c.mono hw ?_, k1, k2, m2, q1, q2⟩
    have := g3 (sz (a := 10) (c := 2) (by omega) (by norm_num) (by norm_num))
    nlinarith
  | true =>
    simp only [if_true] at h h' ⊢
    obtain ⟨aba, sa, x1, abb, sb, d2, x15, x2, d3, x25, e1, e2, hm, e3, hn⟩ := ssprk3O_ok h
    obtain ⟨aba', sa', y1, abb', sb', d2', y15, y2, d3', y25, e1', e2', hm', e3', hn'⟩ := ssprk3O_ok h'
    obtain ⟨c2, s2, m2, k1, k2, ⟨o2, i2⟩, o2', i2'⟩ := two e1 e2 e1' e2'
    obtain ⟨c3, s3, k3, k4⟩ := weightedSum_within hw hu hfl (by norm_num) (by norm_num) (by norm_num) hE2 hXS
      (nn (by norm_num)) hx hy k1 k2 hxy c2 hX s2 hm hm'
    have s3' : StateSized I w ((1 + u) ^ 13 * (X + 2 * (|seconds dt| * T))) x2 := by
      rwa [← mul_assoc, ← pow_add] at s3
    have b1 := g3 (sz (a := 10) (c := 2) (by omega) (by norm_num) (by norm_num))
    have hE3 : E ≤ 3 / 4 * E + 1 / 4 * ((1 + z) * ((1 + z) * E + eulerError u e Y T dt) + eulerError u e Y T dt) +
        ((1 + u) ^ 3 - 1) * Y := by linarith
    obtain ⟨c4, s4, m4⟩ := euler_within hu hfl hw hL he hT hp hTb o2 i2 o2' i2' m2 (le_trans hE hE3) (nn (by norm_num))
      (sz (by omega) (by norm_num) (by norm_num)) (c3.mono hw (by linarith)) s3' e3 e3'
    obtain ⟨o3, i3, _⟩ := eulerCallO_ok o2 i2 e3
    obtain ⟨o3', i3', _⟩ := eulerCallO_ok o2' i2' e3'
    rw [hzd] at c4
    have s4' : StateSized I w Y x25 := by
      refine s4.mono hw ?_
      have := grow_size (X := X) hu (a := 13) (c := 2) hdT
      rw [show (2 : Rat) + 1 = 3 by norm_num, ← hYdef] at this
      exact this
    generalize hE3d : 3 / 4 * E + 1 / 4 * ((1 + z) * ((1 + z) * E + eulerError u e Y T dt) + eulerError u e Y T dt) +
        ((1 + u) ^ 3 - 1) * Y = E3 at *
    have hE4 : E ≤ (1 + z) * E3 + eulerError u e Y T dt := by
      have := mul_nonneg hz (le_trans hE hE3)
      linarith
    obtain ⟨c5, _, k5, k6⟩ := weightedSum_within hw hu hfl (by norm_num) (by norm_num) (by norm_num) hE4 hXY
      hY0 hx hy (eulerCallO_nodup hd (by rw [i2]; exact hnil) e3).2
      (eulerCallO_nodup hd' (by rw [i2']; exact hnil) e3').2 hxy c4 hX s4' hn hn'
    refine ⟨c5.mono hw (le_of_eq ?_), k5, k6, m4, ⟨o3, i3⟩, o3', i3'⟩
    rw [← hE3d]
    ring

end

/-! ## Runs -/

section
variable {σ σ' : Type} {M : σ → σ' → Prop} {p : ProgOver σ DataArray} {p' : ProgOver σ' DataArray}
  {L e X T : Rat}

theorem stageGrowth_one_le (three : Bool) {z : Rat} (hz : 0 ≤ z) : 1 ≤ stageGrowth three z := by
  unfold stageGrowth
  have h3 : 0 ≤ if three then z ^ 3 / 6 else (0 : Rat) := by split <;> positivity
  have h2 : 0 ≤ z ^ 2 / 2 := by positivity
  linarith

theorem stageError_nonneg (three : Bool) (hu : 0 ≤ u) (hL : 0 ≤ L) (he : 0 ≤ e) (hX : 0 ≤ X) (hT : 0 ≤ T) (dt : Int) :
    0 ≤ stageError three u L e (stageSize u X T dt) T dt := by
  have hd := abs_nonneg (seconds dt)
  have hY : 0 ≤ stageSize u X T dt := by unfold stageSize; positivity
  have h3 : 0 ≤ (1 + u) ^ 3 - 1 := by have := one_le_pow hu 3; linarith
  have h5 : 0 ≤ (1 + u) ^ 5 - 1 := by have := one_le_pow hu 5; linarith
  have hz := mul_nonneg hd hL
  unfold stageError eulerError
  refine add_nonneg (mul_nonneg ?_ (add_nonneg (mul_nonneg hd he) (mul_nonneg h5 (add_nonneg hY (mul_nonneg hd hT)))))
    (mul_nonneg ?_ (mul_nonneg h3 hY))
  · split <;> positivity
  · split <;> positivity

theorem ssprk_runs_within (three : Bool) (hu : 0 ≤ u) (hfl : Rounds u fl) (hw : ∀ q, 0 ≤ w q) (hL : 0 ≤ L) (he : 0 ≤ e)
    (hX : 0 ≤ X) (hT : 0 ≤ T) (dt : Int)
    (hp : Approximates I w (stageSize u X T dt) L e M (roundedArith fl conv) (roundedArith id conv') p p')
    (hTb : TendBounded I w (stageSize u X T dt) T (roundedArith fl conv) p dt) (hd : GivesDicts p) (hd' : GivesDicts p')
    (inProps outProps : PropDict) (inst : String) (tid : Bool)
    {b b' : Dict DataArray → EState DataArray → EState DataArray} (hb : BetweenWithin I w b b') (hbd : BetweenDicts b)
    (hbd' : BetweenDicts b') :
    ∀ (n : Nat) (E : Rat) (ab ab' : ABOver DataArray) (s : σ) (s' : σ') (x y : EState DataArray)
      (abf abf' : ABOver DataArray) (sf : σ) (sf' : σ') (xf yf : EState DataArray), 0 ≤ E →
      ab.order = 1 → ab.hist = [] → ab'.order = 1 → ab'.hist = [] → M s s' → (Dict.keys x).Nodup →
      (Dict.keys y).Nodup → CloseStates I w E x y →
      (∀ i < n, ∀ abi si xi, runOver (tsCallO (roundedArith fl conv) inProps outProps inst tid
          (sspCallO (roundedArith fl conv) p three)) b dt i ab s x = (abi, si, .ok xi) → StateSized I w X xi) →
      runOver (tsCallO (roundedArith fl conv) inProps outProps inst tid (sspCallO (roundedArith fl conv) p three)) b dt n
        ab s x = (abf, sf, .ok xf) →
      runOver (tsCallO (roundedArith id conv') inProps outProps inst tid (sspCallO (roundedArith id conv') p' three)) b'
        dt n ab' s' y = (abf', sf', .ok yf) →
      CloseStates I w (grownErrors (stageGrowth three (|seconds dt| * L))
        (stageError three u L e (stageSize u X T dt) T dt) E n) xf yf := by
  intro n
  induction n with
  | zero =>
    intro E ab ab' s s' x y abf abf' sf sf' xf yf _ _ _ _ _ _ _ _ hxy _ h h'
    unfold runOver at h h'
    simp only [Prod.mk.injEq, Except.ok.injEq] at h h'
    rw [← h.2.2, ← h'.2.2]
    simpa [grownErrors] using hxy
  | succ n ih =>
    intro E ab ab' s s' x y abf abf' sf sf' xf yf hE ho hh ho' hh' hM hx hy hxy hsize h h'
    have hXx := hsize 0 (by omega) ab s x rfl
    rw [grownErrors_succ]
    unfold runOver at h h'
    rcases hc : tsCallO (roundedArith fl conv) inProps outProps inst tid
      (sspCallO (roundedArith fl conv) p three) ab s x dt with ⟨ab1, s1, st1, er | ⟨d1, new⟩⟩
    · rw [hc] at h; cases h
    rcases hc' : tsCallO (roundedArith id conv') inProps outProps inst tid
      (sspCallO (roundedArith id conv') p' three) ab' s' y dt with ⟨ab1', s1', st1', er | ⟨d1', new'⟩⟩
    · rw [hc'] at h'; cases h'
    rw [hc] at h
    rw [hc'] at h'
    dsimp only at h h'
    obtain ⟨d, m, hk, hnew⟩ := tsCallO_keeps hc
    obtain ⟨d', m', hk', hnew'⟩ := tsCallO_keeps hc'
    unfold sspCallO at hk hk'
    simp only [Prod.mk.injEq] at hk hk'
    obtain ⟨a1, a2, a3, a4⟩ := hk
    obtain ⟨a1', a2', a3', a4'⟩ := hk'
    subst a3
    subst a3'
    obtain ⟨c, k1, k2, hM1, ⟨o1, i1⟩, o1', i1'⟩ := ssprk_within three hu hfl hw hL he hX hT hp hTb hd hd' ho hh ho' hh' hM
      hE hx hy hxy hXx (ab1 := ab1) (s1 := s1) (d := d) (n := m) (ab1' := ab1') (s1' := s1') (d' := d') (n' := m')
      (by rw [← a1, ← a2, ← a4]) (by rw [← a1', ← a2', ← a4'])
    have hg := stageGrowth_one_le three (mul_nonneg (abs_nonneg (seconds dt)) hL)
    have he0 := stageError_nonneg three hu hL he hX hT dt
    have hE1 : E ≤ stageGrowth three (|seconds dt| * L) * E + stageError three u L e (stageSize u X T dt) T dt := by
      nlinarith
    generalize stageGrowth three (|seconds dt| * L) * E + stageError three u L e (stageSize u X T dt) T dt = E1 at *
    have hnewW : CloseStates I w E1 new new' := by
      rw [hnew, hnew']
      exact hxy.copy hw hE1 c
    refine ih E1 ab1 ab1' s1 s1' (b d1 new) (b' d1' new') abf abf' sf sf' xf yf (le_trans hE hE1)
      o1 i1 o1' i1' hM1 (hbd d1 new (by rw [hnew]; exact nodup_copyUntouchedO _ _ k1))
      (hbd' d1' new' (by rw [hnew']; exact nodup_copyUntouchedO _ _ k2)) (hb E1 d1 d1' new new' hnewW) ?_ h h'
    intro i hi abi si xi hrun
    refine hsize (i + 1) (by omega) abi si xi ?_
    unfold runOver
    rw [hc]
    exact hrun

/-- C114: a run of `n` steps of an SSPRungeKutta with two or three stages in rounded arithmetic, whose values are at
most `X`, ends within `k^n * E + (sum of k^i for i < n) * g` of the run in exact arithmetic from a state at most `E`
away; `k` is the polynomial of Taylor of `exp (dt * L)` of degree 2 or 3, `g` is `stageError`. -/
theorem ssprk_run_rounding (three : Bool) (hu : 0 ≤ u) (hfl : Rounds u fl)
    (conv : DataArray → String → Except Err DataArray) (R : Registry) (hw : ∀ q, 0 ≤ w q) (hL : 0 ≤ L) (he : 0 ≤ e)
    (hX : 0 ≤ X) (hT : 0 ≤ T) (dt : Int)
    (hp : Approximates I w (stageSize u X T dt) L e M (roundedArith fl conv) (dataArrayArith R) p p')
    (hTb : TendBounded I w (stageSize u X T dt) T (roundedArith fl conv) p dt) (hd : GivesDicts p) (hd' : GivesDicts p')
    (inProps outProps : PropDict) (inst : String) (tid : Bool)
    {b b' : Dict DataArray → EState DataArray → EState DataArray} (hb : BetweenWithin I w b b') (hbd : BetweenDicts b)
    (hbd' : BetweenDicts b') (n : Nat) {E : Rat} (hE : 0 ≤ E) (s : σ) (s' : σ') (hM : M s s') {x y : EState DataArray}
    (hx : (Dict.keys x).Nodup) (hy : (Dict.keys y).Nodup) (hxy : CloseStates I w E x y)
    {abf abf' : ABOver DataArray} {sf : σ} {sf' : σ'} {xf yf : EState DataArray}
    (hsize : ∀ i < n, ∀ abi si xi, runOver (tsCallO (roundedArith fl conv) inProps outProps inst tid
      (sspCallO (roundedArith fl conv) p three)) b dt i { order := 1 } s x = (abi, si, .ok xi) → StateSized I w X xi)
    (h : runOver (tsCallO (roundedArith fl conv) inProps outProps inst tid (sspCallO (roundedArith fl conv) p three)) b
      dt n { order := 1 } s x = (abf, sf, .ok xf))
    (h' : runOver (tsCallO (dataArrayArith R) inProps outProps inst tid (sspCallO (dataArrayArith R) p' three)) b' dt n
      { order := 1 } s' y = (abf', sf', .ok yf)) :
    CloseStates I w (stageGrowth three (|seconds dt| * L) ^ n * E +
      ((List.range n).map fun i => stageGrowth three (|seconds dt| * L) ^ i).sum *
        stageError three u L e (stageSize u X T dt) T dt) xf yf := by
  rw [← roundedArith_id R] at hp h'
  exact ssprk_runs_within three hu hfl hw hL he hX hT dt hp hTb hd hd' inProps outProps inst tid hb hbd hbd' n E
    { order := 1 } { order := 1 } s s' x y abf abf' sf sf' xf yf hE rfl rfl rfl rfl hM hx hy hxy hsize h h'

/-- C114: in exact arithmetic two runs of the same components, with tendencies that are Lipschitz continuous with
constant `L`, from states at most `E` apart are at most `k^n * E` apart after `n` steps. -/
theorem ssprk_stable (three : Bool) (R : Registry) (hw : ∀ q, 0 ≤ w q) (hL : 0 ≤ L) (hX : 0 ≤ X) (hT : 0 ≤ T)
    (dt : Int) {M : σ → σ → Prop}
    (hp : Approximates I w (X + 3 * (|seconds dt| * T)) L 0 M (dataArrayArith R) (dataArrayArith R) p p)
    (hTb : TendBounded I w (X + 3 * (|seconds dt| * T)) T (dataArrayArith R) p dt) (hd : GivesDicts p)
    (inProps outProps : PropDict) (inst : String) (tid : Bool)
    {b : Dict DataArray → EState DataArray → EState DataArray} (hb : BetweenWithin I w b b) (hbd : BetweenDicts b)
    (n : Nat) {E : Rat} (hE : 0 ≤ E) (s s' : σ) (hM : M s s') {x y : EState DataArray}
    (hx : (Dict.keys x).Nodup) (hy : (Dict.keys y).Nodup) (hxy : CloseStates I w E x y)
    {abf abf' : ABOver DataArray} {sf sf' : σ} {xf yf : EState DataArray}
    (hsize : ∀ i < n, ∀ abi si xi, runOver (tsCallO (dataArrayArith R) inProps outProps inst tid
      (sspCallO (dataArrayArith R) p three)) b dt i { order := 1 } s x = (abi, si, .ok xi) → StateSized I w X xi)
    (h : runOver (tsCallO (dataArrayArith R) inProps outProps inst tid (sspCallO (dataArrayArith R) p three)) b
      dt n { order := 1 } s x = (abf, sf, .ok xf))
    (h' : runOver (tsCallO (dataArrayArith R) inProps outProps inst tid (sspCallO (dataArrayArith R) p three)) b dt n
      { order := 1 } s' y = (abf', sf', .ok yf)) :
    CloseStates I w (stageGrowth three (|seconds dt| * L) ^ n * E) xf yf := by
  have hY : stageSize 0 X T dt = X + 3 * (|seconds dt| * T) := by
    unfold stageSize
    rw [add_zero, one_pow, one_mul]
  have h0 : stageError three 0 L 0 (stageSize 0 X T dt) T dt = 0 := by
    unfold stageError eulerError
    rw [add_zero, one_pow, one_pow, sub_self, mul_zero, zero_mul, zero_mul, add_zero, mul_zero, mul_zero, add_zero]
  rw [← hY] at hp hTb
  rw [← roundedArith_id R] at hp hTb hsize h
  have := ssprk_run_rounding three (le_refl 0) id_rounds _ R hw hL (le_refl 0) hX hT dt
    (by rw [← roundedArith_id R]; exact hp) hTb hd hd inProps outProps inst tid hb hbd hbd n hE s s' hM hx hy hxy hsize h h'
  rwa [h0, mul_zero, add_zero] at this

end

end

/-! ## Non-vacuity -/

theorem Demo.fades_bounded (hu : 0 ≤ u) (hfl : Rounds u fl) {I : (String → Nat) → Prop} {w : String → Rat}
    (hw : ∀ q, 0 ≤ w q) {Y T : Rat} (hY : 0 ≤ Y) (hT : (1 + u) ^ 2 * (1 / 10 * Y) ≤ T) (dt : Int) :
    TendBounded I w Y T (roundedArith fl conv) (Demo.fades (roundedArith fl conv)) dt := by
  intro s x r t hX hr ht q ix hix
  obtain ⟨a, ha, hr⟩ := Exc.bind_ok_iff.1 hr
  cases hr
  have ht : [("T", (roundedArith fl conv).setAttrs ((roundedArith fl conv).smul (-1 / 10) a) [])] = t := by
    cases ht; rfl
  subst ht
  unfold tval
  simp only [Dict.get?_cons]
  by_cases hq : "T" = q
  · subst hq
    rw [if_pos rfl]
    show |fl (fl (-1 / 10) * a.at' ix)| ≤ _
    have n1 := ((Near.exact (u := u) (a.at' ix)).smul hu hfl (-1 / 10)).grown
    have hc : |(-1 / 10 : Rat)| = 1 / 10 := by norm_num [abs_of_neg]
    rw [hc, zero_add] at n1
    have n2 := hX "T" a (EState.da_ok.1 ha) ix hix
    have h1 := one_le_pow hu 2
    calc _ ≤ _ := n1
      _ ≤ (1 + u) ^ 2 * (1 / 10 * (Y * w "T")) :=
        mul_le_mul_of_nonneg_left (mul_le_mul_of_nonneg_left n2 (by norm_num)) (by linarith)
      _ = (1 + u) ^ 2 * (1 / 10 * Y) * w "T" := by ring
      _ ≤ _ := mul_le_mul_of_nonneg_right hT (hw "T")
  · rw [if_neg hq]
    show |(0 : Rat)| ≤ _
    rw [abs_zero]
    have h1 := one_le_pow hu 2
    exact mul_nonneg (le_trans (mul_nonneg (by linarith) (by linarith)) hT) (hw q)

theorem Demo.fades_dicts (A : Arith DataArray) : GivesDicts (Demo.fades A) := by
  intro s x dt r h
  obtain ⟨a, _, h⟩ := Exc.bind_ok_iff.1 h
  cases h
  exact List.nodup_singleton _

/-- the runs of the next example return, and differ -/
example : Exc.test (runOver (tsCallO (roundedArith binary64 Demo.asIs) [] [] "" false
      (sspCallO (roundedArith binary64 Demo.asIs) (Demo.fades (roundedArith binary64 Demo.asIs)) true)) (fun _ s => s)
      1000000 1 { order := 1 } () (Demo.scalarT 7)).2.2
      (fun s => Demo.valueIn s "T" (fun _ => 0) ≠ 38003 / 6000) = true ∧
    Exc.test (runOver (tsCallO (dataArrayArith Demo.reg) [] [] "" false
      (sspCallO (dataArrayArith Demo.reg) (Demo.fades (dataArrayArith Demo.reg)) true)) (fun _ s => s)
      1000000 1 { order := 1 } () (Demo.scalarT 7)).2.2
      (fun s => Demo.valueIn s "T" (fun _ => 0) = 38003 / 6000) = true := by
  decide +kernel

/-- two steps of three stages in `float64` arithmetic, all hypotheses of `ssprk_run_rounding` met -/
example {abf abf' : ABOver DataArray} {xf yf : EState DataArray}
    (h : runOver (tsCallO (roundedArith binary64 Demo.asIs) [] [] "" false
      (sspCallO (roundedArith binary64 Demo.asIs) (Demo.fades (roundedArith binary64 Demo.asIs)) true)) (fun _ s => s)
      1000000 2 { order := 1 } () (Demo.scalarT 7) = (abf, (), .ok xf))
    (h' : runOver (tsCallO (dataArrayArith Demo.reg) [] [] "" false
      (sspCallO (dataArrayArith Demo.reg) (Demo.fades (dataArrayArith Demo.reg)) true)) (fun _ s => s)
      1000000 2 { order := 1 } () (Demo.scalarT 7) = (abf', (), .ok yf)) :
    CloseStates Demo.origin (fun _ => 1) (1 / 10 ^ 13) xf yf := by
  have h0 : CloseStates Demo.origin (fun _ => 1) 0 (Demo.scalarT 7) (Demo.scalarT 7) :=
    ⟨fun _ => Iff.rfl, fun q a b ha hb ix _ => by
      rw [ha] at hb
      cases hb
      rw [sub_self, abs_zero, zero_mul]⟩
  have := ssprk_run_rounding (I := Demo.origin) (w := fun _ => 1) (u := 2 ^ (-53 : Int)) true (by positivity)
    binary64_rounds Demo.asIs Demo.reg (fun _ => by norm_num) (L := 1 / 10)
    (e := ((1 + 2 ^ (-53 : Int)) ^ 2 - 1) * (1 / 10 * stageSize (2 ^ (-53 : Int)) 7 (11 / 10) 1000000))
    (X := 7) (T := 11 / 10) (by norm_num) (by decide +kernel) (by norm_num) (by norm_num) 1000000
    (Demo.fades_approximates (by positivity) binary64_rounds Demo.reg (by decide +kernel) (fun _ => by norm_num))
    (Demo.fades_bounded (by positivity) binary64_rounds (fun _ => by norm_num) (by decide +kernel) (by decide +kernel) _)
    (Demo.fades_dicts _) (Demo.fades_dicts _) [] [] "" false (fun _ _ _ _ _ h => h) (fun _ _ h => h) (fun _ _ h => h) 2
    (le_refl 0) () () trivial (by decide +kernel) (by decide +kernel) h0
    (by
      intro i hi abi si xi hrun
      refine (Demo.small_sized ?_).1
      rcases (by omega : i = 0 ∨ i = 1) with rfl | rfl
      · cases hrun
        decide +kernel
      · have ht : Exc.test (runOver (tsCallO (roundedArith binary64 Demo.asIs) [] [] "" false
          (sspCallO (roundedArith binary64 Demo.asIs) (Demo.fades (roundedArith binary64 Demo.asIs)) true)) (fun _ s => s)
          1000000 1 { order := 1 } () (Demo.scalarT 7)).2.2 Demo.small = true := by decide +kernel
        rw [hrun] at ht
        exact ht) h h'
  refine ⟨this.keys, fun q a b ha hb ix hix => le_trans (this.close q a b ha hb ix hix) ?_⟩
  decide +kernel

/-- one exact step of two stages from 7 K and from 6 K, all hypotheses of `ssprk_stable` met -/
example {abf abf' : ABOver DataArray} {xf yf : EState DataArray}
    (h : runOver (tsCallO (dataArrayArith Demo.reg) [] [] "" false
      (sspCallO (dataArrayArith Demo.reg) (Demo.fades (dataArrayArith Demo.reg)) false)) (fun _ s => s)
      1000000 1 { order := 1 } () (Demo.scalarT 7) = (abf, (), .ok xf))
    (h' : runOver (tsCallO (dataArrayArith Demo.reg) [] [] "" false
      (sspCallO (dataArrayArith Demo.reg) (Demo.fades (dataArrayArith Demo.reg)) false)) (fun _ s => s)
      1000000 1 { order := 1 } () (Demo.scalarT 6) = (abf', (), .ok yf)) :
    CloseStates Demo.origin (fun _ => 1) (221 / 200) xf yf := by
  have hpos : (0 : Rat) ≤ 7 + 3 * (|seconds 1000000| * (11 / 10)) := by decide +kernel
  have hp := Demo.fades_approximates (I := Demo.origin) (w := fun _ => 1) (u := 0) (le_refl 0) id_rounds Demo.reg
    (conv := fun a units => a.toUnits Demo.reg units) hpos (fun _ => by norm_num)
  have hTb := Demo.fades_bounded (I := Demo.origin) (w := fun _ => 1) (u := 0) (le_refl 0) id_rounds
    (conv := fun a units => a.toUnits Demo.reg units) (fun _ => by norm_num) hpos (T := 11 / 10) (by decide +kernel) 1000000
  rw [roundedArith_id, add_zero, one_pow, sub_self, zero_mul] at hp
  rw [roundedArith_id] at hTb
  have h0 : CloseStates Demo.origin (fun _ => 1) 1 (Demo.scalarT 7) (Demo.scalarT 6) := by
    refine ⟨fun _ => Iff.rfl, fun q a b ha hb ix _ => ?_⟩
    unfold Demo.scalarT at ha hb
    rw [Dict.get?_cons] at ha hb
    split at ha
    · rename_i hq
      rw [if_pos hq] at hb
      cases ha
      cases hb
      show |(7 : Rat) - 6| ≤ _
      norm_num
    · cases ha
  have := ssprk_stable (I := Demo.origin) (w := fun _ => 1) false Demo.reg (fun _ => by norm_num) (L := 1 / 10) (X := 7)
    (T := 11 / 10) (by norm_num) (by norm_num) (by norm_num) 1000000 hp hTb (Demo.fades_dicts _) [] [] "" false
    (fun _ _ _ _ _ h => h) (fun _ _ h => h) 1 (E := 1) (by norm_num) () () trivial (by decide +kernel)
    (by decide +kernel) h0
    (by
      intro i hi abi si xi hrun
      refine (Demo.small_sized ?_).1
      rcases (by omega : i = 0) with rfl
      cases hrun
      decide +kernel) h h'
  refine ⟨this.keys, fun q a b ha hb ix hix => le_trans (this.close q a b ha hb ix hix) ?_⟩
  decide +kernel

end Verif

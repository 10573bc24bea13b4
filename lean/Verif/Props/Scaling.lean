import Verif.Lemmas.Wrappers
import Verif.Props.Components
import Mathlib.Tactic.Ring
/-!
# C42, C43: ScalingWrapper
-/

namespace Verif

section
variable {σ : Type}

theorem scalingKind_cases (o : Obj) (k : Kind) (h : scalingKind o = some k) :
    isInstance k o = true ∧
    (k = .tendency → isInstance .stepper o = false) ∧
    (k = .implicit → isInstance .stepper o = false ∧ isInstance .tendency o = false) ∧
    (k = .diagnostic → isInstance .stepper o = false ∧ isInstance .tendency o = false ∧
      isInstance .implicit o = false) := by
  unfold scalingKind at h
  simp only [List.find?_cons] at h
  cases hs : isInstance .stepper o <;> cases ht : isInstance .tendency o <;>
    cases hi : isInstance .implicit o <;> cases hd : isInstance .diagnostic o <;>
    simp_all <;> subst h <;> simp_all

/-- The call, once the inputs are scaled, for each kind. -/
theorem scaling_call_eq (w : Scaling) (o : Obj) (inKeys : List String) (comp : WComp σ)
    (m : WMem σ) (state : RState) (dt : Option Int) {m1 : WMem σ} {s1 : RState}
    (hi : scaleInputs w.input state inKeys m (timeOf state) = (m1, .ok s1)) {k : Kind}
    (hk : scalingKind o = some k) :
    w.call o inKeys comp m state dt =
      if takesTimestep k ∧ dt = none then (m1, .error .typeError)
      else match comp m1 s1 (if takesTimestep k then dt else none) with
        | (m2, .error e) => (m2, .error e)
        | (m2, .ok r) => if k = .stepper then scaleBoth w.output w.diagnostic r.2 r.1 m2 r
          else if k = .diagnostic then scaleBoth [] w.diagnostic [] r.1 m2 r
          else scaleBoth w.tendency w.diagnostic r.1 r.2 m2 r := by
  obtain ⟨h1, h2, h3, h4⟩ := scalingKind_cases o k hk
  unfold Scaling.call
  rw [hi]
  cases k <;> cases dt <;> simp_all [takesTimestep] <;>
    (rcases comp m1 s1 none with ⟨m2, r2⟩; cases r2 <;> rfl)

theorem scaleBoth_ok {f1 f2 : Dict Rat} {d1 d2 : RState} {m m' : WMem σ} {out r : RState × RState}
    (h : scaleBoth f1 f2 d1 d2 m out = (m', .ok r)) : r = out ∧
    (scaleOutputs f1 m d1).2 = .ok () ∧ (scaleOutputs f2 (scaleOutputs f1 m d1).1 d2).2 = .ok () ∧
    m' = (scaleOutputs f2 (scaleOutputs f1 m d1).1 d2).1 := by
  unfold scaleBoth at h
  rcases h1 : scaleOutputs f1 m d1 with ⟨m1, r1⟩
  rw [h1] at h
  cases r1 with
  | error e => cases h
  | ok u =>
    dsimp only at h ⊢
    rcases h2 : scaleOutputs f2 m1 d2 with ⟨m2, r2⟩
    rw [h2] at h
    cases r2 with
    | error e => cases h
    | ok u' =>
      dsimp only at h
      injection h with h3 h4
      injection h4 with h4
      exact ⟨h4.symm, rfl, rfl, h3.symm⟩

theorem disjoint_symm {d d2 : RState} (h : Disjoint' d d2) : Disjoint' d2 d :=
  fun kv hkv kv2 hkv2 l hl hl2 => h kv2 hkv2 kv hkv l hl2 hl

/-- Scaling two dictionaries without common arrays, one after the other. -/
theorem scaleBoth_spec {f1 f2 : Dict Rat} (hf1 : f1.keys.Nodup) (hf2 : f2.keys.Nodup) {d1 d2 : RState}
    {m m' : WMem σ} {out r : RState × RState} (h : scaleBoth f1 f2 d1 d2 m out = (m', .ok r))
    (hu1 : Unshared d1) (hu2 : Unshared d2) (hd : Disjoint' d1 d2) (hv1 : Valid m d1) (hv2 : Valid m d2)
    (hn1 : (Dict.keys d1).Nodup) (hn2 : (Dict.keys d2).Nodup) :
    ScaledDict f1 (m.vals d1) (m'.vals d1) ∧ ScaledDict f2 (m.vals d2) (m'.vals d2) ∧
    m'.world = m.world ∧
    ∀ l, (∀ kv ∈ d1 ++ d2, kv.2 ≠ .ref l) → m'.at' l = m.at' l := by
  obtain ⟨-, h1, h2, rfl⟩ := scaleBoth_ok h
  obtain ⟨a1, a2, a3, -, a5⟩ := scaleOutputs_refines f1 m hu1 hv1 hn1
  have hv2' : Valid (scaleOutputs f1 m d1).1 d2 := fun kv hkv l hl => by rw [a2]; exact hv2 kv hkv l hl
  obtain ⟨b1, b2, b3, -, b5⟩ := scaleOutputs_refines f2 (scaleOutputs f1 m d1).1 hu2 hv2' hn2
  refine ⟨?_, ?_, b1.trans a1, ?_⟩
  · rw [b3 d1 (disjoint_symm hd)]
    exact scaleOutputsV_spec f1 hf1 _ _ (a5 h1)
  · rw [← a3 d2 hd]
    exact scaleOutputsV_spec f2 hf2 _ _ (b5 h2)
  · intro l hl
    have k1 := a3 [("", .ref l)] (fun kv hkv kv2 hkv2 l' hl' hl2 => by
      simp only [List.mem_singleton] at hkv2
      subst hkv2
      injection hl2 with hl2
      subst hl2
      exact hl kv (by simp [hkv]) hl')
    have k2 := b3 [("", .ref l)] (fun kv hkv kv2 hkv2 l' hl' hl2 => by
      simp only [List.mem_singleton] at hkv2
      subst hkv2
      injection hl2 with hl2
      subst hl2
      exact hl kv (by simp [hkv]) hl')
    rw [k1] at k2
    simp only [WMem.vals, Dict.mapVal, List.map_cons, List.map_nil, WMem.val, List.cons.injEq, Prod.mk.injEq,
      Val.da.injEq, and_true, true_and] at k2
    exact k2

theorem unshared_append {d1 d2 : RState} (h : Unshared (d1 ++ d2)) :
    Unshared d1 ∧ Unshared d2 ∧ Disjoint' d1 d2 := by
  unfold Unshared at h
  rw [List.pairwise_append] at h
  exact ⟨h.1, h.2.1, fun kv hkv kv2 hkv2 l hl => h.2.2 kv hkv kv2 hkv2 l hl⟩

/-- The factor dictionaries are dictionaries. -/
def Scaling.Dicts (w : Scaling) : Prop :=
  w.input.keys.Nodup ∧ w.diagnostic.keys.Nodup ∧ w.output.keys.Nodup ∧ w.tendency.keys.Nodup

/-- **C42, partial.**  A call that does not raise: the component was called once, with
the timestep if it takes one, on a state holding its inputs (and the time), the named
ones multiplied by their factors; the caller's arrays and the component's world were
not changed before; and the result is what the component returned, with the named
outputs multiplied by their factors, every other output and every other array
unchanged.  Missing from the full claim: the component must return distinct arrays
(`scaling_shared_array`), and it is given its declared inputs only, not the whole state
(`scaling_drops_tracers`). -/
theorem scaling_wrapper_partial (w : Scaling) (hw : w.Dicts) (o : Obj) (inKeys : List String) (comp : WComp σ)
    (m : WMem σ) (state : RState) (hstate : Valid m state) (dt : Option Int) {m' : WMem σ} {r : RState × RState}
    (h : w.call o inKeys comp m state dt = (m', .ok r)) :
    ∃ k m1 s1 m2, scalingKind o = some k ∧
      m1.world = m.world ∧ (∀ l < m.arrays.length, m1.at' l = m.at' l) ∧
      (∀ q, q ∈ Dict.keys s1 ↔ q ∈ inKeys ∨ q = "time" ∧ q ∈ Dict.keys state) ∧
      (∀ q ∈ inKeys, ∃ x y, Dict.get? (m.vals state) q = some x ∧ Dict.get? (m1.vals s1) q = some y ∧
        ScaledEntry (w.input.get? q) x y) ∧
      ("time" ∉ inKeys → Dict.get? s1 "time" = Dict.get? state "time") ∧
      comp m1 s1 (if takesTimestep k then dt else none) = (m2, .ok r) ∧
      (takesTimestep k → dt ≠ none) ∧
      (Unshared (r.1 ++ r.2) → Valid m2 (r.1 ++ r.2) → (Dict.keys r.1).Nodup → (Dict.keys r.2).Nodup →
        (k = .diagnostic → r.2 = []) →
        ScaledDict (w.factors k).1 (m2.vals r.1) (m'.vals r.1) ∧
        ScaledDict (w.factors k).2 (m2.vals r.2) (m'.vals r.2) ∧ m'.world = m2.world ∧
        ∀ l, (∀ kv ∈ r.1 ++ r.2, kv.2 ≠ .ref l) → m'.at' l = m2.at' l) := by
  have htv : Valid m (timeOf state) := by
    unfold timeOf
    intro kv hkv l hl
    cases ht : Dict.get? state "time" with
    | none => rw [ht] at hkv; cases hkv
    | some v =>
      rw [ht] at hkv
      simp only [List.mem_singleton] at hkv
      subst hkv
      dsimp only at hl
      subst hl
      exact hstate.get ht
  rcases hi : scaleInputs w.input state inKeys m (timeOf state) with ⟨m1, r1⟩
  cases r1 with
  | error e =>
    unfold Scaling.call at h
    rw [hi] at h
    cases h
  | ok s1 =>
    cases hk : scalingKind o with
    | none =>
      exfalso
      unfold scalingKind at hk
      simp only [List.find?_eq_none, List.mem_cons, List.not_mem_nil, or_false, forall_eq_or_imp,
        forall_eq, Bool.not_eq_true] at hk
      unfold Scaling.call at h
      rw [hi] at h
      simp only [hk.1, hk.2.1, hk.2.2.1, hk.2.2.2] at h
      cases h
    | some k =>
      rw [scaling_call_eq w o inKeys comp m state dt hi hk] at h
      split at h
      · cases h
      rename_i hdt
      rcases hc : comp m1 s1 (if takesTimestep k then dt else none) with ⟨m2, r2⟩
      rw [hc] at h
      cases r2 with
      | error e => cases h
      | ok r2 =>
        obtain ⟨e1, e2, -, e4⟩ := scaleInputs_refines w.input state inKeys m (timeOf state) hstate htv
        rw [hi] at e1 e2 e4
        obtain ⟨-, e5⟩ := e4 s1 rfl
        obtain ⟨f1, f2, f3⟩ := scaleInputsV_spec _ _ _ _ _ e5
        have hr : r = r2 := by
          dsimp only at h
          split at h
          · exact (scaleBoth_ok h).1
          · split at h
            · exact (scaleBoth_ok h).1
            · exact (scaleBoth_ok h).1
        subst hr
        have hkt : ∀ q, q ∈ Dict.keys (timeOf state) ↔ q = "time" ∧ q ∈ Dict.keys state := by
          intro q
          unfold timeOf
          cases ht : Dict.get? state "time" with
          | none =>
            simp only [Dict.keys, List.map_nil, List.not_mem_nil, false_iff, not_and]
            rintro rfl
            exact (Dict.get?_eq_none_iff _ _).1 ht
          | some v =>
            simp only [Dict.keys, List.map_cons, List.map_nil, List.mem_singleton]
            constructor
            · rintro rfl
              exact ⟨rfl, Dict.mem_keys_of_get? ht⟩
            · exact fun h => h.1
        refine ⟨k, m1, s1, m2, rfl, e2, fun l hl => e1.at hl, ?_, f2, ?_, hc, ?_, ?_⟩
        · intro q
          have hq := f1 q
          simp only [WMem.vals, Dict.keys_mapVal] at hq
          rw [hq, hkt]
        · intro htk
          have h3 := f3 "time" htk
          obtain ⟨-, e6, -⟩ := scaleInputs_refines w.input state inKeys m (timeOf state) hstate htv
          -- values agree; the entry itself is copied
          have : ∀ (ks : List String) (m : WMem σ) (out : RState) (m1 : WMem σ) (s1 : RState),
              scaleInputs w.input state ks m out = (m1, .ok s1) → "time" ∉ ks →
              Dict.get? s1 "time" = Dict.get? out "time" := by
            intro ks
            induction ks with
            | nil => intro m out m1 s1 h _; injection h with _ h; injection h with h; subst h; rfl
            | cons q ks ih =>
              intro m out m1 s1 h hq
              simp only [List.mem_cons, not_or] at hq
              unfold scaleInputs at h
              split at h
              · cases h
              · split at h
                · rw [ih _ _ _ _ h hq.2, Dict.get?_set_ne _ _ (Ne.symm hq.1)]
                · split at h
                  · cases h
                  · rw [ih _ _ _ _ h hq.2, Dict.get?_set_ne _ _ (Ne.symm hq.1)]
          rw [this _ _ _ _ _ hi htk]
          unfold timeOf
          cases ht : Dict.get? state "time" with
          | none => rfl
          | some v => rfl
        · intro hkt' hd
          exact hdt ⟨hkt', hd⟩
        · intro hu hv hn1 hn2 hdiag
          obtain ⟨u1, u2, u3⟩ := unshared_append hu
          have hv1 : Valid m2 r.1 := fun kv hkv => hv kv (List.mem_append_left _ hkv)
          have hv2 : Valid m2 r.2 := fun kv hkv => hv kv (List.mem_append_right _ hkv)
          obtain ⟨w1, w2, w3, w4⟩ := hw
          dsimp only at h
          have hperm : ∀ l, (∀ kv ∈ r.1 ++ r.2, kv.2 ≠ RVal.ref l) → ∀ kv ∈ r.2 ++ r.1, kv.2 ≠ RVal.ref l := by
            intro l hl kv hkv
            apply hl
            rcases List.mem_append.1 hkv with h | h
            · exact List.mem_append_right _ h
            · exact List.mem_append_left _ h
          cases k with
          | stepper =>
            simp only [if_true] at h
            obtain ⟨g1, g2, g3, g4⟩ := scaleBoth_spec w3 w2 h u2 u1 (disjoint_symm u3) hv2 hv1 hn2 hn1
            exact ⟨g2, g1, g3, fun l hl => g4 l (hperm l hl)⟩
          | tendency =>
            simp only [reduceCtorEq, if_false] at h
            exact scaleBoth_spec w4 w2 h u1 u2 u3 hv1 hv2 hn1 hn2
          | implicit =>
            simp only [reduceCtorEq, if_false] at h
            exact scaleBoth_spec w4 w2 h u1 u2 u3 hv1 hv2 hn1 hn2
          | diagnostic =>
            simp only [reduceCtorEq, if_false, if_true] at h
            obtain ⟨g1, g2, g3, g4⟩ := scaleBoth_spec (f1 := ([] : Dict Rat)) List.nodup_nil w2 h List.Pairwise.nil u1
              (fun _ h => (by cases h)) (fun _ h => (by cases h)) hv1 List.nodup_nil hn1
            have hr2 := hdiag rfl
            refine ⟨g2, ?_, g3, fun l hl => g4 l (by simpa using fun a b h => hl (a, b) (List.mem_append_left _ h))⟩
            rw [hr2]
            exact ⟨rfl, fun k hk => (by cases hk), fun k x hx => (by cases hx)⟩

/-- **C42.**  The constructor: given a component it recognises that has the property
dictionaries the factors are for, it fails with ValueError iff a name is unknown, and
otherwise stores the factors. -/
theorem scaling_make (o : Obj) (k : Kind) (hk : isInstance k o = true) (props : HasProps)
    (inF outF tendF diagF : Option (Dict Rat)) (hin : props.input ≠ none)
    (hout : outF ≠ none → props.output ≠ none) (htend : tendF ≠ none → props.tendency ≠ none)
    (hdiag : diagF ≠ none → props.diagnostic ≠ none) :
    ((∀ fp ∈ [(inF, props.input), (outF, props.output), (tendF, props.tendency), (diagF, props.diagnostic)],
        ∀ q ∈ Dict.keys (fp.1.getD []), q ∈ Dict.keys (fp.2.getD [])) →
      Scaling.make o props inF outF tendF diagF = .ok { input := inF.getD [], diagnostic := diagF.getD [], output := outF.getD [], tendency := tendF.getD [] }) ∧
    ((∃ fp ∈ [(inF, props.input), (outF, props.output), (tendF, props.tendency), (diagF, props.diagnostic)],
        ∃ q ∈ Dict.keys (fp.1.getD []), q ∉ Dict.keys (fp.2.getD [])) →
      Scaling.make o props inF outF tendF diagF = .error .valueError) := by
  have hrec : ([Kind.diagnostic, .tendency, .implicit, .stepper].any fun k => isInstance k o) = true := by
    rw [List.any_eq_true]
    exact ⟨k, by cases k <;> simp, hk⟩
  have fact : ∀ (f : Option (Dict Rat)) (p : Option PropDict), (f ≠ none → p ≠ none) →
      ((∀ q ∈ Dict.keys (f.getD []), q ∈ Dict.keys (p.getD [])) → factorsFor f p = .ok (f.getD [])) ∧
      ((∃ q ∈ Dict.keys (f.getD []), q ∉ Dict.keys (p.getD [])) → factorsFor f p = .error .valueError) := by
    intro f p hfp
    cases f with
    | none => exact ⟨fun _ => rfl, fun ⟨q, hq, _⟩ => (by cases hq)⟩
    | some f =>
      cases p with
      | none => exact absurd rfl (hfp (by simp))
      | some p =>
        constructor
        · intro h
          simp only [factorsFor, ensureFields, Option.getD_some] at h ⊢
          rw [if_pos h]
          rfl
        · rintro ⟨q, hq, hq2⟩
          simp only [factorsFor, ensureFields, Option.getD_some] at hq hq2 ⊢
          rw [if_neg (fun h => hq2 (h q hq))]
          rfl
  have hin' : factorsFor inF (some (props.input.getD [])) = factorsFor inF props.input := by
    cases h : props.input with
    | none => exact absurd h hin
    | some p => rfl
  have f1 := fact inF props.input (fun _ => hin)
  have f2 := fact diagF props.diagnostic hdiag
  have f3 := fact outF props.output hout
  have f4 := fact tendF props.tendency htend
  unfold Scaling.make
  rw [if_pos hrec, hin']
  have dec : ∀ (f : Option (Dict Rat)) (p : Option PropDict),
      (∀ q ∈ Dict.keys (f.getD []), q ∈ Dict.keys (p.getD [])) ∨
      (∃ q ∈ Dict.keys (f.getD []), q ∉ Dict.keys (p.getD [])) := by
    intro f p
    by_cases h : ∀ q ∈ Dict.keys (f.getD []), q ∈ Dict.keys (p.getD [])
    · exact .inl h
    · right
      simpa using h
  constructor
  · intro h
    rw [f1.1 (h (inF, props.input) (by simp)), f2.1 (h (diagF, props.diagnostic) (by simp)),
      f3.1 (h (outF, props.output) (by simp)), f4.1 (h (tendF, props.tendency) (by simp))]
    rfl
  · intro h
    rcases dec inF props.input with h1 | h1
    · rw [f1.1 h1]
      rcases dec diagF props.diagnostic with h2 | h2
      · rw [f2.1 h2]
        rcases dec outF props.output with h3 | h3
        · rw [f3.1 h3]
          rcases dec tendF props.tendency with h4 | h4
          · exfalso
            obtain ⟨fp, hfp, q, hq, hq2⟩ := h
            simp only [List.mem_cons, List.not_mem_nil, or_false] at hfp
            rcases hfp with rfl | rfl | rfl | rfl
            · exact hq2 (h1 q hq)
            · exact hq2 (h3 q hq)
            · exact hq2 (h4 q hq)
            · exact hq2 (h2 q hq)
          · rw [f4.2 h4]
            rfl
        · rw [f3.2 h3]
          rfl
      · rw [f2.2 h2]
        rfl
    · rw [f1.2 h1]
      rfl

/-- **C42.**  An object of no kind is rejected with TypeError. -/
theorem scaling_make_unknown (o : Obj) (ho : ∀ k, isInstance k o = false) (props : HasProps)
    (inF outF tendF diagF : Option (Dict Rat)) :
    Scaling.make o props inF outF tendF diagF = .error .typeError := by
  unfold Scaling.make
  rw [if_neg]
  simp [ho]

theorem factorsFor_error {f : Option (Dict Rat)} {p : Option PropDict} {e : Err} (h : factorsFor f p = .error e) :
    (e = .typeError ∧ f ≠ none ∧ p = none) ∨
    (e = .valueError ∧ ∃ q ∈ Dict.keys (f.getD []), p ≠ none ∧ q ∉ Dict.keys (p.getD [])) := by
  cases f with
  | none => cases h
  | some f =>
    cases p with
    | none => exact .inl ⟨(Except.error.inj h).symm, by simp, rfl⟩
    | some p =>
      right
      simp only [factorsFor, ensureFields] at h
      by_cases hall : ∀ k ∈ Dict.keys f, k ∈ Dict.keys p
      · rw [if_pos hall] at h
        cases h
      · rw [if_neg hall] at h
        refine ⟨(Except.error.inj h).symm, ?_⟩
        push Not at hall
        obtain ⟨q, hq, hq2⟩ := hall
        exact ⟨q, hq, by simp, hq2⟩

/-- **C42.**  Why the constructor fails: the object is no component or lacks the property
dictionary that some factors are for (TypeError), or a name is not in it (ValueError). -/
theorem scaling_make_error (o : Obj) (props : HasProps) (hin : props.input ≠ none)
    (inF outF tendF diagF : Option (Dict Rat)) (e : Err) (h : Scaling.make o props inF outF tendF diagF = .error e) :
    (e = .typeError ∧ ((∀ k, isInstance k o = false) ∨
      ∃ fp ∈ [(outF, props.output), (tendF, props.tendency), (diagF, props.diagnostic)], fp.1 ≠ none ∧ fp.2 = none)) ∨
    (e = .valueError ∧
      ∃ fp ∈ [(inF, props.input), (outF, props.output), (tendF, props.tendency), (diagF, props.diagnostic)],
        ∃ q ∈ Dict.keys (fp.1.getD []), fp.2 ≠ none ∧ q ∉ Dict.keys (fp.2.getD [])) := by
  unfold Scaling.make at h
  by_cases hrec : ([Kind.diagnostic, .tendency, .implicit, .stepper].any fun k => isInstance k o) = true
  · rw [if_pos hrec] at h
    rcases Exc.bind_error_iff.1 h with h | ⟨_, _, h⟩
    · rcases factorsFor_error h with ⟨_, _, hn⟩ | ⟨he, q, hq, _, hq2⟩
      · cases hn
      · exact .inr ⟨he, _, List.mem_cons_self .., q, hq, hin, hq2⟩
    rcases Exc.bind_error_iff.1 h with h | ⟨_, _, h⟩
    · rcases factorsFor_error h with ⟨he, h1, h2⟩ | ⟨he, hq⟩
      · exact .inl ⟨he, .inr ⟨(diagF, props.diagnostic), by simp, h1, h2⟩⟩
      · exact .inr ⟨he, (diagF, props.diagnostic), by simp, hq⟩
    rcases Exc.bind_error_iff.1 h with h | ⟨_, _, h⟩
    · rcases factorsFor_error h with ⟨he, h1, h2⟩ | ⟨he, hq⟩
      · exact .inl ⟨he, .inr ⟨(outF, props.output), by simp, h1, h2⟩⟩
      · exact .inr ⟨he, (outF, props.output), by simp, hq⟩
    rcases Exc.bind_error_iff.1 h with h | ⟨_, _, h⟩
    · rcases factorsFor_error h with ⟨he, h1, h2⟩ | ⟨he, hq⟩
      · exact .inl ⟨he, .inr ⟨(tendF, props.tendency), by simp, h1, h2⟩⟩
      · exact .inr ⟨he, (tendF, props.tendency), by simp, hq⟩
    cases h
  · rw [if_neg hrec] at h
    refine .inl ⟨(Except.error.inj h).symm, .inl fun k => ?_⟩
    rw [Bool.not_eq_true, List.any_eq_false] at hrec
    have := hrec k (by cases k <;> simp)
    simpa using this

/-- **C42.**  Factors for a kind of output that the component does not have are rejected. -/
theorem scaling_make_lacking (o : Obj) (props : HasProps) (inF outF tendF diagF : Option (Dict Rat))
    (h : ∃ fp ∈ [(outF, props.output), (tendF, props.tendency), (diagF, props.diagnostic)], fp.1 ≠ none ∧ fp.2 = none)
    (w : Scaling) : Scaling.make o props inF outF tendF diagF ≠ .ok w := by
  have lack : ∀ {f : Option (Dict Rat)} {p : Option PropDict} {v}, factorsFor f p = .ok v → ¬ (f ≠ none ∧ p = none) := by
    rintro (_ | f) (_ | p) v h ⟨h1, h2⟩
    · exact h1 rfl
    · cases h2
    · cases h
    · cases h2
  intro hok
  unfold Scaling.make at hok
  split at hok
  · obtain ⟨_, _, hok⟩ := Exc.bind_ok_iff.1 hok
    obtain ⟨_, hd, hok⟩ := Exc.bind_ok_iff.1 hok
    obtain ⟨_, ho, hok⟩ := Exc.bind_ok_iff.1 hok
    obtain ⟨_, ht, hok⟩ := Exc.bind_ok_iff.1 hok
    obtain ⟨fp, hfp, hl⟩ := h
    simp only [List.mem_cons, List.not_mem_nil, or_false] at hfp
    rcases hfp with rfl | rfl | rfl
    · exact lack ho hl
    · exact lack ht hl
    · exact lack hd hl
  · cases hok

theorem scaleOutputs_isOk (f : Dict Rat) (m : WMem σ) (d : RState)
    (h : ∀ k ∈ f.keys, ∃ l, Dict.get? d k = some (.ref l)) : (scaleOutputs f m d).2 = .ok () := by
  induction f generalizing m with
  | nil => rfl
  | cons kc f ih =>
    obtain ⟨k, c⟩ := kc
    obtain ⟨l, hl⟩ := h k (by simp [Dict.keys])
    unfold scaleOutputs
    rw [hl]
    exact ih _ (fun q hq => h q (by simp only [Dict.keys, List.map_cons]; exact List.mem_cons_of_mem _ hq))

theorem scaleInputs_isOk (f : Dict Rat) (state : RState) (ks : List String) (m : WMem σ) (out : RState)
    (h : ∀ k ∈ ks, ∃ v, Dict.get? state k = some v ∧ (k ∈ f.keys → ∃ l, v = .ref l)) :
    ∃ s1, (scaleInputs f state ks m out).2 = .ok s1 := by
  induction ks generalizing m out with
  | nil => exact ⟨out, rfl⟩
  | cons k ks ih =>
    obtain ⟨v, hv, hl⟩ := h k (by simp)
    unfold scaleInputs
    rw [hv]
    cases hf : f.get? k with
    | none => exact ih _ _ (fun q hq => h q (by simp [hq]))
    | some c =>
      obtain ⟨l, rfl⟩ := hl (Dict.mem_keys_of_get? hf)
      exact ih _ _ (fun q hq => h q (by simp [hq]))

/-- **C42.**  When the call does not raise: every input is in the state, the scaled
ones are arrays, a timestep is given if one is needed, the component does not raise,
and the scaled outputs are arrays it returned. -/
theorem scaling_wrapper_succeeds (w : Scaling) (o : Obj) (inKeys : List String) (comp : WComp σ) (m : WMem σ)
    (state : RState) (dt : Option Int) {k : Kind} (hk : scalingKind o = some k)
    (hin : ∀ q ∈ inKeys, ∃ v, Dict.get? state q = some v ∧ (q ∈ w.input.keys → ∃ l, v = .ref l))
    (hdt : takesTimestep k → dt ≠ none)
    (hcomp : ∀ m1 s1 dt', ∃ m2 r, comp m1 s1 dt' = (m2, .ok r) ∧
      (∀ q ∈ (w.factors k).1.keys, ∃ l, Dict.get? r.1 q = some (.ref l)) ∧
      (∀ q ∈ (w.factors k).2.keys, ∃ l, Dict.get? r.2 q = some (.ref l))) :
    ∃ r, (w.call o inKeys comp m state dt).2 = .ok r := by
  obtain ⟨s1, hs1⟩ := scaleInputs_isOk w.input state inKeys m (timeOf state) hin
  rcases hi : scaleInputs w.input state inKeys m (timeOf state) with ⟨m1, r1⟩
  rw [hi] at hs1
  dsimp only at hs1
  subst hs1
  rw [scaling_call_eq w o inKeys comp m state dt hi hk, if_neg (fun h => hdt h.1 h.2)]
  obtain ⟨m2, r, hc, h1, h2⟩ := hcomp m1 s1 (if takesTimestep k then dt else none)
  rw [hc]
  dsimp only
  have both : ∀ (f1 f2 : Dict Rat) (d1 d2 : RState),
      (∀ q ∈ f1.keys, ∃ l, Dict.get? d1 q = some (.ref l)) →
      (∀ q ∈ f2.keys, ∃ l, Dict.get? d2 q = some (.ref l)) → ∃ r', (scaleBoth f1 f2 d1 d2 m2 r).2 = .ok r' := by
    intro f1 f2 d1 d2 g1 g2
    refine ⟨r, ?_⟩
    unfold scaleBoth
    have e1 := scaleOutputs_isOk f1 m2 d1 g1
    rcases x1 : scaleOutputs f1 m2 d1 with ⟨m3, r3⟩
    rw [x1] at e1
    dsimp only at e1
    subst e1
    dsimp only
    have e2 := scaleOutputs_isOk f2 m3 d2 g2
    rcases x2 : scaleOutputs f2 m3 d2 with ⟨m4, r4⟩
    rw [x2] at e2
    dsimp only at e2
    subst e2
    rfl
  cases k with
  | stepper => exact both _ _ _ _ h2 h1
  | tendency => exact both _ _ _ _ h1 h2
  | implicit => exact both _ _ _ _ h1 h2
  | diagnostic => exact both [] _ [] _ (fun q hq => (by cases hq)) h1

/-- **C42, counterexample.**  The component never sees a quantity that is not among its
declared inputs: one that needs such a quantity (tracers are not declared) cannot be
wrapped, every call raises. -/
theorem scaling_drops_tracers (w : Scaling) (o : Obj) (inKeys : List String) (comp : WComp σ) (m : WMem σ)
    (state : RState) (dt : Option Int) (q : String) (hq : q ∉ inKeys) (hqt : q ≠ "time")
    (hneeds : ∀ m s dt, q ∉ Dict.keys s → ∃ e, (comp m s dt).2 = .error e) :
    ∃ e, (w.call o inKeys comp m state dt).2 = .error e := by
  have hkeys : ∀ (ks : List String) (m : WMem σ) (out : RState) (m1 : WMem σ) (s1 : RState), q ∉ ks →
      q ∉ Dict.keys out → scaleInputs w.input state ks m out = (m1, .ok s1) → q ∉ Dict.keys s1 := by
    intro ks
    induction ks with
    | nil => intro m out m1 s1 _ ho h; injection h with _ h; injection h with h; subst h; exact ho
    | cons k ks ih =>
      intro m out m1 s1 hks ho h
      simp only [List.mem_cons, not_or] at hks
      unfold scaleInputs at h
      have hset : ∀ v : RVal, q ∉ Dict.keys (Dict.set out k v) := by
        intro v hv
        rcases (Dict.mem_keys_set _ _ _ _).1 hv with h | h
        · exact hks.1 h
        · exact ho h
      split at h
      · cases h
      · split at h
        · exact ih _ _ _ _ hks.2 (hset _) h
        · split at h
          · cases h
          · exact ih _ _ _ _ hks.2 (hset _) h
  rcases hi : scaleInputs w.input state inKeys m (timeOf state) with ⟨m1, r1⟩
  cases r1 with
  | error e =>
    unfold Scaling.call
    rw [hi]
    exact ⟨e, rfl⟩
  | ok s1 =>
    have hns : q ∉ Dict.keys s1 := by
      refine hkeys _ _ _ _ _ hq ?_ hi
      unfold timeOf
      cases Dict.get? state "time" with
      | none => simp [Dict.keys]
      | some v => simpa [Dict.keys] using hqt
    cases hk : scalingKind o with
    | none =>
      unfold scalingKind at hk
      simp only [List.find?_eq_none, List.mem_cons, List.not_mem_nil, or_false, forall_eq_or_imp,
        forall_eq, Bool.not_eq_true] at hk
      unfold Scaling.call
      rw [hi]
      simp only [hk.1, hk.2.1, hk.2.2.1, hk.2.2.2]
      exact ⟨_, rfl⟩
    | some k =>
      rw [scaling_call_eq w o inKeys comp m state dt hi hk]
      split
      · exact ⟨_, rfl⟩
      · obtain ⟨e, he⟩ := hneeds m1 s1 (if takesTimestep k then dt else none) hns
        rcases hc : comp m1 s1 (if takesTimestep k then dt else none) with ⟨m2, r2⟩
        rw [hc] at he
        dsimp only at he
        subst he
        exact ⟨e, rfl⟩

end

end Verif

import Verif.Props.Tracers
import Verif.Props.Components
import Verif.Lemmas.ComponentCalls
/-!
# C61 to C63: tracers and components
-/

namespace Verif

/-! ## C61: units of registered tracers -/

theorem registerTracer_units (R : Registry) (g : Tracers) (n u m : String) :
    (registerTracer R g n u).1.units.get? m = g.units.get? m ∨
    (m = n ∧ (registerTracer R g n u).1.units.get? m = some u ∧
      (g.units.get? n = none ∨ ∃ old, g.units.get? n = some old ∧ R.unitsAreSame old u = .ok true)) := by
  unfold registerTracer
  dsimp only
  cases ho : g.units.get? n with
  | none =>
    dsimp only
    by_cases h : m = n
    · subst h; right; exact ⟨rfl, Dict.get?_set_self _ _ _, Or.inl rfl⟩
    · left; exact Dict.get?_set_ne _ _ (Ne.symm h)
  | some old =>
    dsimp only
    cases hs : R.unitsAreSame old u with
    | error e => left; rfl
    | ok b =>
      rw [Exc.ok_bind]
      cases b with
      | false => left; rfl
      | true =>
        simp only [if_true]
        by_cases h : m = n
        · subst h; right; exact ⟨rfl, Dict.get?_set_self _ _ _, Or.inr ⟨old, rfl, hs⟩⟩
        · left; exact Dict.get?_set_ne _ _ (Ne.symm h)

theorem sameUnit_of_unitsAreSame {R : Registry} (hR : R.Faithful) {s t : String}
    (h : R.unitsAreSame s t = .ok true) : SameUnit R s t := by
  unfold Registry.unitsAreSame at h
  obtain ⟨a, ha, h⟩ := Exc.bind_ok_iff.1 h
  obtain ⟨b, hb, h⟩ := Exc.bind_ok_iff.1 h
  rw [Registry.unit_ok] at ha hb
  injection h with h
  unfold PintUnit.sameQty at h
  simp only [Bool.and_eq_true, decide_eq_true_eq, PintUnit.toBase, one_mul] at h
  obtain ⟨h1, h2⟩ := hR s t a b ha hb h.1 h.2
  exact ⟨a, b, ha, hb, h.1, h1, h2⟩

theorem SameUnit.trans' {R : Registry} {s t u : String} (h1 : SameUnit R s t) (h2 : SameUnit R t u) :
    SameUnit R s u := by
  obtain ⟨a, b, ha, hb, e1, e2, e3⟩ := h1
  obtain ⟨b', c, hb', hc, f1, f2, f3⟩ := h2
  rw [hb] at hb'; cases hb'
  exact ⟨a, c, ha, hc, e1.trans f1, e2.trans f2, e3.trans f3⟩

/-- **C61, histories.**  Whatever calls follow (registrations, component creations
and packer resets, returning or raising), until the tracers are reset a
registered tracer stays registered and its recorded units stay those of its
first registration: the same text, or another text for the same unit. -/
theorem tracer_units_stable (R : Registry) (hR : R.Faithful) (ops : List TOp) :
    ∀ (g : Tracers) (n u : String), g.units.get? n = some u →
      (∀ op ∈ ops, op ≠ .resetTracers) →
      ∃ u', (runOps R g ops).units.get? n = some u' ∧ (u' = u ∨ SameUnit R u u') := by
  induction ops with
  | nil => intro g n u h _; exact ⟨u, h, Or.inl rfl⟩
  | cons op ops ih =>
    intro g n u h hno
    have hrest : ∀ op ∈ ops, op ≠ TOp.resetTracers := fun o ho => hno o (List.mem_cons_of_mem _ ho)
    have step : ∃ u1, (op.run R g).1.units.get? n = some u1 ∧ (u1 = u ∨ SameUnit R u u1) := by
      cases op with
      | register m v =>
        show ∃ u1, (registerTracer R g m v).1.units.get? n = some u1 ∧ _
        rcases registerTracer_units R g m v n with h1 | ⟨rfl, h1, h2⟩
        · exact ⟨u, by rw [h1, h], Or.inl rfl⟩
        · rcases h2 with h2 | ⟨old, h2, h3⟩
          · rw [h] at h2; cases h2
          · rw [h] at h2; cases h2
            exact ⟨v, h1, Or.inr (sameUnit_of_unitsAreSame hR h3)⟩
      | create o d p =>
        refine ⟨u, ?_, Or.inl rfl⟩
        show (createPacker g o d p).1.units.get? n = some u
        unfold createPacker
        dsimp only
        split <;> exact h
      | resetTracers => exact absurd rfl (hno _ List.mem_cons_self)
      | resetPackers => exact ⟨u, h, Or.inl rfl⟩
    obtain ⟨u1, h1, h2⟩ := step
    obtain ⟨u2, h3, h4⟩ := ih _ n u1 h1 hrest
    refine ⟨u2, h3, ?_⟩
    rcases h2 with rfl | h2
    · exact h4
    · rcases h4 with rfl | h4
      · exact Or.inr h2
      · exact Or.inr (h2.trans' h4)

/-- **C61, rejection.**  Registering a registered tracer again with units that are
known but not the same unit raises ValueError and changes nothing. -/
theorem changed_units_rejected (R : Registry) (hR : R.Faithful) (g : Tracers) (n old u : String)
    (h : g.units.get? n = some old) (ho : (R.parse old).isSome) (hu : (R.parse u).isSome)
    (hne : ¬ SameUnit R old u) : registerTracer R g n u = (g, .error .valueError) := by
  unfold registerTracer
  rw [h]
  dsimp only
  obtain ⟨a, ha⟩ := Option.isSome_iff_exists.1 ho
  obtain ⟨b, hb⟩ := Option.isSome_iff_exists.1 hu
  have hs : R.unitsAreSame old u = .ok false := by
    cases hv : R.unitsAreSame old u with
    | error e =>
      unfold Registry.unitsAreSame at hv
      rw [Registry.unit_ok.2 ha, Registry.unit_ok.2 hb] at hv
      simp at hv
    | ok b =>
      cases b with
      | false => rfl
      | true => exact absurd (sameUnit_of_unitsAreSame hR hv) hne
  rw [hs, Exc.ok_bind]
  rfl

theorem forM'_isOk {α : Type} {f : α → Except Err Unit} {l : List α}
    (h : ∀ a ∈ l, f a = .ok ()) : forM' f l = .ok () := by
  induction l with
  | nil => rfl
  | cons a l ih =>
    unfold forM'
    rw [h a (by simp), Exc.ok_bind]
    exact ih fun b hb => h b (List.mem_cons_of_mem _ hb)

/-- **C61, acceptance.**  A tracer that is new, or registered with the same unit,
and that is no output of an existing tracer-using component is registered with
the units given; other tracers keep theirs. -/
theorem same_units_accepted (R : Registry) (g : Tracers) (n u : String)
    (h : g.units.get? n = none ∨ ∃ old, g.units.get? n = some old ∧ SameUnit R old u)
    (hout : ∀ p ∈ g.packers, n ∉ p.outNames) :
    (registerTracer R g n u).2 = .ok () ∧ (registerTracer R g n u).1.units.get? n = some u ∧
    (∀ m, m ≠ n → (registerTracer R g n u).1.units.get? m = g.units.get? m) ∧
    (registerTracer R g n u).1.names = g.names ++ [n] := by
  have hf : forM' (fun p => p.ensureNotOutput n) g.packers = .ok () :=
    forM'_isOk fun p hp => ensureNotOutput_ok.2 (hout p hp)
  have hr : registerTracer R g n u =
      ({ g with units := g.units.set n u, names := g.names ++ [n] }, .ok ()) := by
    unfold registerTracer
    rcases h with h | ⟨old, h, a, b, ha, hb, e1, e2, e3⟩
    · rw [h]; dsimp only; rw [hf]
    · rw [h]
      dsimp only
      have hs : R.unitsAreSame old u = .ok true := by
        unfold Registry.unitsAreSame
        rw [Registry.unit_ok.2 ha, Registry.unit_ok.2 hb]
        simp [PintUnit.sameQty, PintUnit.toBase, e1, e2, e3]
      rw [hs, Exc.ok_bind]
      simp only [if_true]
      rw [hf]
  rw [hr]
  exact ⟨rfl, Dict.get?_set_self _ _ _, fun m hm => Dict.get?_set_ne _ _ (Ne.symm hm), rfl⟩

/-- Non-vacuity of C61: three spellings of one unit are accepted, another unit is
rejected in between. -/
example : (runOps Demo.reg {} [.register "h" "m", .register "h" "km", .register "h" "m"]).units.get? "h"
      = some "m" ∧
    registerTracer Demo.reg (runOps Demo.reg {} [.register "h" "m"]) "h" "km" =
      (runOps Demo.reg {} [.register "h" "m"], .error .valueError) := by
  refine ⟨by decide +kernel, ?_⟩
  have h1 : Exc.failsWith (registerTracer Demo.reg (runOps Demo.reg {} [.register "h" "m"]) "h" "km").2
    .valueError = true := by decide +kernel
  have h2 := Exc.failsWith_error h1
  exact Prod.ext ((rejected_registration_unchanged_partial _ _ _ _).1 _ h2 (by decide)) h2

/-! ## C62: construction of tracer-using components -/

/-- A class allowed to use tracers by the present tracer table: it says how its
tracer array is laid out, with a `tracer` axis, and none of its outputs is a
registered or prepended tracer. -/
def TracersOk (g : Tracers) (c : Class) : Prop :=
  (∃ td, c.tracerDims = some td ∧ "tracer" ∈ td) ∧
  ∀ n ∈ c.outProps.keys, n ∉ g.units.keys ∧ n ∉ c.prepend.map (·.1)

theorem forM'_error {α : Type} {f : α → Except Err Unit} {l : List α} {e : Err}
    (h : forM' f l = .error e) : ∃ a ∈ l, f a = .error e := by
  induction l with
  | nil => cases h
  | cons a l ih =>
    unfold forM' at h
    cases ha : f a with
    | error e' =>
      rw [ha] at h
      cases h
      exact ⟨a, by simp, ha⟩
    | ok _ =>
      rw [ha, Exc.ok_bind] at h
      obtain ⟨b, hb, hf⟩ := ih h
      exact ⟨b, List.mem_cons_of_mem _ hb, hf⟩

theorem createPacker_decides (g : Tracers) (o d : List String) (q : List (String × String)) :
    ("tracer" ∉ d → createPacker g o d q = (g, .error .valueError)) ∧
    ("tracer" ∈ d → (∃ n ∈ o, n ∈ g.units.keys ∨ n ∈ q.map (·.1)) →
      createPacker g o d q = (g, .error .invalidPropertyDict)) ∧
    ("tracer" ∈ d → (∀ n ∈ o, n ∉ g.units.keys ∧ n ∉ q.map (·.1)) →
      createPacker g o d q = ({ g with packers := g.packers ++ [⟨q, d, o⟩] }, .ok ⟨q, d, o⟩)) := by
  refine ⟨?_, ?_, ?_⟩
  · intro h
    unfold createPacker quantityDims
    rw [if_neg h]; rfl
  · rintro h ⟨n, hn, hbad⟩
    have hens : ∀ (p : Packer) (m : String) (e : Err), p.ensureNotOutput m = .error e →
        e = .invalidPropertyDict := by
      intro p m e he
      unfold Packer.ensureNotOutput at he
      split at he
      · cases he; rfl
      · cases he
    unfold createPacker quantityDims
    rw [if_pos h]
    dsimp only
    rw [Exc.ok_bind]
    split
    · rename_i e he
      congr 2
      rcases Exc.bind_error_iff.1 he with he | ⟨_, _, he⟩
      · obtain ⟨nu, _, he⟩ := forM'_error he
        split at he
        · exact hens _ _ _ he
        · cases he
      · obtain ⟨nu, _, he⟩ := forM'_error he
        exact hens _ _ _ he
    · rename_i he
      exfalso
      obtain ⟨_, h1, h2⟩ := Exc.bind_ok_iff.1 he
      by_cases hk : n ∈ g.units.keys
      · obtain ⟨v, hv⟩ := Dict.get?_of_mem_keys hk
        exact ensureNotOutput_ok.1 (forM'_ok h2 _ (Dict.mem_of_get? hv)) hn
      · obtain ⟨nu, hnu, rfl⟩ := List.mem_map.1 (hbad.resolve_left hk)
        have := forM'_ok h1 nu hnu
        rw [if_pos hk] at this
        exact ensureNotOutput_ok.1 this hn
  · intro h hok
    unfold createPacker quantityDims
    rw [if_pos h]
    dsimp only
    rw [Exc.ok_bind, forM'_isOk (by
      intro nu hnu
      split
      · exact ensureNotOutput_ok.2 fun ho => (hok _ ho).2 (List.mem_map.2 ⟨nu, hnu, rfl⟩)
      · rfl), Exc.ok_bind, forM'_isOk (by
      intro nu hnu
      exact ensureNotOutput_ok.2 fun ho => (hok _ ho).1 (Dict.mem_keys_of_mem hnu))]

theorem insertProps_noTracers (c : Class) (name : String) :
    insertProps { c with usesTracers := false } name =
      ({ (insertProps c name).1 with usesTracers := false }, (insertProps c name).2) := by
  obtain ⟨k, i, o, d, u, td, p, t⟩ := c
  unfold insertProps
  cases k with
  | stepper => rfl
  | diagnostic => rfl
  | tendency => dsimp only; cases insertTendencyProps name i o d [] <;> rfl
  | implicit => dsimp only; cases insertTendencyProps name i o d [] <;> rfl

/-- **C62.**  For a Stepper or tendency component with `uses_tracers`: if the same
class without tracers could not be constructed, construction fails with the same
exception; otherwise it succeeds exactly when `tracer_dims` is given and contains
`tracer` and no output is a registered or prepended tracer.  A missing
`tracer_dims` raises ValueError (AttributeError for the tendency components,
which do not define the attribute), a missing `tracer` axis ValueError, a tracer
among the outputs InvalidPropertyDictError; on failure the tracer tables are
unchanged, on success only the packer is added. -/
theorem construct_tracers_iff (R : Registry) (g : Tracers) (c : Class) (tid : Bool) (name : String)
    (hk : c.kind ≠ .diagnostic) (hu : c.usesTracers = true) :
    (∀ e, (construct R g { c with usesTracers := false } tid name).2.2 = .error e →
      (construct R g c tid name).1 = g ∧ (construct R g c tid name).2.2 = .error e) ∧
    (∀ i, (construct R g { c with usesTracers := false } tid name).2.2 = .ok i →
      (TracersOk g c → ∃ p : Packer, (construct R g c tid name).2.2 = .ok { i with packer := some p } ∧
        c.tracerDims = some p.dims ∧ p.prepend = c.prepend ∧ p.outNames = c.outProps.keys ∧
        (construct R g c tid name).1 = { g with packers := g.packers ++ [p] }) ∧
      (¬ TracersOk g c → (construct R g c tid name).1 = g ∧
        (construct R g c tid name).2.2 = .error
          (match c.tracerDims with
           | none => if c.kind = .stepper then .valueError else .attributeError
           | some td => if "tracer" ∈ td then .invalidPropertyDict else .valueError))) := by
  have hrun : runCheckers R { c with usesTracers := false } = runCheckers R c := rfl
  have hins : insertProps { c with usesTracers := false } name =
      ({ (insertProps c name).1 with usesTracers := false }, (insertProps c name).2) := insertProps_noTracers c name
  have hmk : ∀ c' : Class, makePacker g { c' with usesTracers := false } = (g, .ok none) := by
    intro c'
    unfold makePacker
    rw [if_neg (by simp)]
  have hpk : ∀ c' : Class, c'.kind = c.kind → c'.outProps = c.outProps → c'.usesTracers = c.usesTracers →
      c'.prepend = c.prepend → c'.tracerDims = c.tracerDims →
      makePacker g c' = makePacker g c := by
    intro c' h1 h2 h3 h4 h5
    unfold makePacker
    rw [h1, h2, h3, h4, h5]
  have hdec : (TracersOk g c → ∃ p : Packer, makePacker g c =
        ({ g with packers := g.packers ++ [p] }, .ok (some p)) ∧
        c.tracerDims = some p.dims ∧ p.prepend = c.prepend ∧ p.outNames = c.outProps.keys) ∧
      (¬ TracersOk g c → makePacker g c = (g, .error
        (match c.tracerDims with
           | none => if c.kind = .stepper then .valueError else .attributeError
           | some td => if "tracer" ∈ td then .invalidPropertyDict else .valueError))) := by
    unfold makePacker
    rw [if_pos ⟨hk, hu⟩]
    cases htd : c.tracerDims with
    | none =>
      refine ⟨?_, fun _ => rfl⟩
      rintro ⟨⟨td, h, _⟩, _⟩
      rw [htd] at h; cases h
    | some td =>
      dsimp only
      obtain ⟨d1, d2, d3⟩ := createPacker_decides g c.outProps.keys td c.prepend
      refine ⟨?_, ?_⟩
      · rintro ⟨⟨td', h, ht⟩, ho⟩
        rw [htd] at h; cases h
        rw [d3 ht ho]
        exact ⟨_, rfl, rfl, rfl, rfl⟩
      · intro hno
        by_cases ht : "tracer" ∈ td
        · have hbad : ∃ n ∈ c.outProps.keys, n ∈ g.units.keys ∨ n ∈ c.prepend.map (·.1) := by
            by_contra hcon
            apply hno
            refine ⟨⟨td, htd, ht⟩, fun n hn => ⟨fun h => hcon ⟨n, hn, Or.inl h⟩, fun h => hcon ⟨n, hn, Or.inr h⟩⟩⟩
          rw [d2 ht hbad, if_pos ht]; rfl
        · rw [d1 ht, if_neg ht]; rfl
  have hkind := insertProps_kind c name
  unfold construct
  rw [hrun]
  cases hc : runCheckers R c with
  | error e =>
    refine ⟨fun e' h => ⟨rfl, h⟩, fun i h => (by cases h)⟩
  | ok _ =>
    dsimp only
    have hcase : ∀ (ins : Class × Except Err (List String)) (a : List String), ins.2 = .ok a →
        makePacker g ins.1 = makePacker g c →
        (TracersOk g c → ∃ p : Packer,
          ((makePacker g ins.1).2 >>= fun p => .ok { name := name, tid := tid, ignored := a, packer := p } :
            Except Err Inst) = .ok { name := name, tid := tid, ignored := a, packer := some p } ∧
          c.tracerDims = some p.dims ∧ p.prepend = c.prepend ∧ p.outNames = c.outProps.keys ∧
          (makePacker g ins.1).1 = { g with packers := g.packers ++ [p] }) ∧
        (¬ TracersOk g c → (makePacker g ins.1).1 = g ∧
          ((makePacker g ins.1).2 >>= fun p => .ok { name := name, tid := tid, ignored := a, packer := p } :
            Except Err Inst) = .error
          (match c.tracerDims with
           | none => if c.kind = .stepper then .valueError else .attributeError
           | some td => if "tracer" ∈ td then .invalidPropertyDict else .valueError)) := by
      intro ins a _ hm
      rw [hm]
      refine ⟨?_, ?_⟩
      · intro ht
        obtain ⟨p, h1, h2, h3, h4⟩ := hdec.1 ht
        rw [h1]
        exact ⟨p, rfl, h2, h3, h4, rfl⟩
      · intro ht
        rw [hdec.2 ht]
        exact ⟨rfl, rfl⟩
    cases tid with
    | false =>
      simp only [Bool.false_eq_true, if_false]
      rw [hmk]
      refine ⟨fun e h => (by cases h), ?_⟩
      intro i h
      cases h
      exact hcase (c, .ok []) [] rfl rfl
    | true =>
      simp only [if_true]
      rw [hins]
      dsimp only
      cases ha : (insertProps c name).2 with
      | error e => exact ⟨fun e' h => ⟨rfl, h⟩, fun i h => by cases h⟩
      | ok a =>
        dsimp only
        rw [hmk]
        refine ⟨fun e h => (by cases h), ?_⟩
        intro i h
        cases h
        exact hcase (insertProps c name) a ha
          (hpk _ hkind.1 hkind.2.1 hkind.2.2.1 hkind.2.2.2.1 hkind.2.2.2.2.1)

/-- A tracer-using tendency component for the examples: `qv` tendency from `T`. -/
def Demo.tracerCls : Class :=
  { Demo.cls with usesTracers := true, tracerDims := some ["z", "tracer", "*"], prepend := [("h", "m")] }

/-- Non-vacuity of C62: accepted, without dims, without a tracer axis, and with
an output that is a registered tracer. -/
example : TracersOk {} Demo.tracerCls ∧
    ¬ TracersOk {} { Demo.tracerCls with tracerDims := none } ∧
    ¬ TracersOk {} { Demo.tracerCls with tracerDims := some ["z", "*"] } ∧
    ¬ TracersOk (runOps Demo.reg {} [.register "T" "K"]) Demo.tracerCls := by
  refine ⟨⟨⟨["z", "tracer", "*"], rfl, by decide⟩, by decide +kernel⟩, ?_, ?_, ?_⟩
  · rintro ⟨⟨td, h, _⟩, _⟩; cases h
  · rintro ⟨⟨td, h, h2⟩, _⟩; cases h; revert h2; decide
  · rintro ⟨_, h⟩
    exact (h "T" (by decide +kernel)).1 (by decide +kernel)
example : Exc.test (construct Demo.reg {} Demo.tracerCls false "me").2.2
    (fun i => decide ((i.packer.map (·.dims)) = some ["z", "tracer", "*"])) = true := by decide +kernel

/-! ## C63: calls of tracer-using components -/

theorem prepare_tracers {R : Registry} {g : Tracers} {c : Class} {i : Inst} {state : State}
    {p : Packer} {raw : RawState} (hp : i.packer = some p) (h : prepare R g c i state = .ok raw) :
    ∃ t, p.pack R g state = .ok t ∧ raw.arrays.get? "tracers" = some t := by
  unfold prepare at h
  obtain ⟨_, _, h⟩ := Exc.bind_ok_iff.1 h
  obtain ⟨r, _, h⟩ := Exc.bind_ok_iff.1 h
  obtain ⟨r', h1, h⟩ := Exc.bind_ok_iff.1 h
  obtain ⟨_, _, h⟩ := Exc.bind_ok_iff.1 h
  rw [hp] at h1
  obtain ⟨t, ht, h1⟩ := Exc.bind_ok_iff.1 h1
  cases h1
  cases h
  exact ⟨t, ht, Dict.get?_set_self _ _ _⟩

/-- **C63, what `array_call` is given and what becomes of its result (tendency
components).**  A successful call has passed `array_call` under `tracers` an array
whose `j`-th slice along the tracer axis holds the state's `j`-th tracer in the
tracer's units.  If the `tracers` array it returned has the shape of the one it
was given, the call returns for the `j`-th tracer a tendency in the tracer's units
times the component's time unit, holding at every named coordinate the value of
the `j`-th slice. -/
theorem tendency_call_tracers {σ : Type} (R : Registry) (hR : R.Faithful) (ops : List TOp)
    (c : Class) (i : Inst) (p : Packer)
    (arrayCall : σ → RawState → σ × Except Err (Dict NDArray × Dict NDArray)) (s s' : σ)
    (state : State) (tend diag : Dict DataArray)
    (hwf : state.WF) (hsf : state.StarFree)
    (hpk : i.packer = some p) (hn : c.outProps.keys.Nodup)
    (hdims : p.dims.count "tracer" = 1) (hstar : p.dims.count "*" ≤ 1)
    (hp : (p.prepend.map (·.1)).Nodup) (hne : tracerNames (runOps R {} ops) p ≠ [])
    (h : callTendency R (runOps R {} ops) c i arrayCall s state = (s', .ok (tend, diag))) :
    ∃ raw rawT rawD t t' L,
      arrayCall s raw = (s', .ok (rawT, rawD)) ∧
      raw.arrays.get? "tracers" = some t ∧ rawT.get? "tracers" = some t' ∧
      t.shape = tracerShape p.dims (wildSpec (requested state (tracerReq (runOps R {} ops) p))) L
        (tracerNames (runOps R {} ops) p).length ∧
      ∀ j name, (tracerNames (runOps R {} ops) p)[j]? = some name →
        ∃ units a own, tracerUnits (runOps R {} ops) p name = some units ∧
          Dict.get? state name = some (.da a) ∧ a.attrs.get? "units" = some own ∧
          (∀ ix : String → Nat,
            InB (tracerIndex p.dims (wildSpec (requested state (tracerReq (runOps R {} ops) p))) L ix j) t.shape →
            ("*" ∈ p.dims → ∀ d ∈ wildSpec (requested state (tracerReq (runOps R {} ops) p)), ix d < L d) →
            SamePhysical R units
              (t.get (tracerIndex p.dims (wildSpec (requested state (tracerReq (runOps R {} ops) p))) L ix j))
              own (a.at' ix)) ∧
          (t'.shape = t.shape → name ∉ c.outProps.keys → ∃ da, tend.get? name = some da ∧
            da.attrs = [("units", if c.tendencyTimeUnit = "" then units
              else units ++ " " ++ c.tendencyTimeUnit)] ∧
            da.dims = outDimsSpec (p.dims.erase "tracer")
              (wildSpec (requested state (tracerReq (runOps R {} ops) p))) ∧
            da.arr.shape = da.dims.map L ∧
            ∀ ix : String → Nat, InB (da.dims.map ix) da.arr.shape →
              da.at' ix = t'.get (tracerIndex p.dims
                (wildSpec (requested state (tracerReq (runOps R {} ops) p))) L ix j)) := by
  unfold callTendency at h
  cases hprep : prepare R (runOps R {} ops) c i state with
  | error e => rw [hprep] at h; injection h with _ h; cases h
  | ok raw =>
    rw [hprep] at h
    dsimp only at h
    injection h with hs h
    obtain ⟨⟨rawT, rawD⟩, hac, hfin⟩ := Exc.bind_ok_iff.1 h
    obtain ⟨t, ht, hrt⟩ := prepare_tracers hpk hprep
    unfold finishTendency at hfin
    obtain ⟨tr, htr, hfin⟩ := Exc.bind_ok_iff.1 hfin
    obtain ⟨_, _, hfin⟩ := Exc.bind_ok_iff.1 hfin
    obtain ⟨_, _, hfin⟩ := Exc.bind_ok_iff.1 hfin
    obtain ⟨td, htd, hfin⟩ := Exc.bind_ok_iff.1 hfin
    obtain ⟨dd, _, hfin⟩ := Exc.bind_ok_iff.1 hfin
    injection hfin with hfin
    injection hfin with hout _
    unfold takeTracers at htr
    rw [hpk] at htr
    dsimp only at htr
    obtain ⟨t', ht', htr⟩ := Exc.bind_ok_iff.1 htr
    obtain ⟨tout, htout, htr⟩ := Exc.bind_ok_iff.1 htr
    cases htr
    obtain ⟨L, hL, hsh, hsl⟩ := packed_slices R hR ops p state t hwf hsf hdims hstar hp hne ht
    have hq : "tracer" ∈ p.dims := List.count_pos_iff.1 (by omega)
    have hin : ∃ raw0, getNumpyArrays R state (tracerReq (runOps R {} ops) p) = .ok raw0 := by
      unfold Packer.pack at ht
      rw [quantityDims_ok hq] at ht
      simp only [Exc.ok_bind] at ht
      obtain ⟨raw, hraw, _⟩ := Exc.bind_ok_iff.1 ht
      exact ⟨raw, hraw⟩
    refine ⟨raw, rawT, rawD, t, t', L, Prod.ext hs hac, hrt, Dict.get_eq_ok.1 ht', hsh, ?_⟩
    intro j name hj
    obtain ⟨units, a, own, g1, g2, g3, g4⟩ := hsl j name hj
    refine ⟨units, a, own, g1, g2, g3, g4, ?_⟩
    intro hshape hno
    obtain ⟨out, ho1, _, ho3⟩ := unpacked_values R ops p state t' c.tendencyTimeUnit L hwf hdims hstar hp hin
      hL.1 (hshape.trans hsh)
    rw [ho1] at htout
    cases htout
    obtain ⟨units', da, k1, k2, k3, k4, k5, k6⟩ := ho3 j name hj
    rw [g1] at k1; cases k1
    refine ⟨da, ?_, k3, k4, k5, k6⟩
    rw [← hout]
    dsimp only
    rw [Dict.get?_update _ _ (restore_nodup htd), k2,
      (Dict.get?_eq_none_iff _ _).2 (fun hm => hno ((restore_keys hn htd name).1 hm).1)]
    rfl

/-- **C63, Steppers.**  The same for a Stepper, whose returned slices are the new
values of the tracers in the tracers' own units. -/
theorem stepper_call_tracers {σ : Type} (R : Registry) (hR : R.Faithful) (ops : List TOp)
    (c : Class) (i : Inst) (p : Packer)
    (arrayCall : σ → RawState → Int → σ × Except Err (Dict NDArray × Dict NDArray)) (s s' : σ)
    (state : State) (dt : Int) (diag new : Dict DataArray)
    (hwf : state.WF) (hsf : state.StarFree)
    (hpk : i.packer = some p) (hn : c.outProps.keys.Nodup)
    (hdims : p.dims.count "tracer" = 1) (hstar : p.dims.count "*" ≤ 1)
    (hp : (p.prepend.map (·.1)).Nodup) (hne : tracerNames (runOps R {} ops) p ≠ [])
    (h : callStepper R (runOps R {} ops) c i arrayCall s state dt = (s', .ok (diag, new))) :
    ∃ raw rawD rawN t t' L,
      arrayCall s raw dt = (s', .ok (rawD, rawN)) ∧
      raw.arrays.get? "tracers" = some t ∧ rawN.get? "tracers" = some t' ∧
      t.shape = tracerShape p.dims (wildSpec (requested state (tracerReq (runOps R {} ops) p))) L
        (tracerNames (runOps R {} ops) p).length ∧
      ∀ j name, (tracerNames (runOps R {} ops) p)[j]? = some name →
        ∃ units a own, tracerUnits (runOps R {} ops) p name = some units ∧
          Dict.get? state name = some (.da a) ∧ a.attrs.get? "units" = some own ∧
          (∀ ix : String → Nat,
            InB (tracerIndex p.dims (wildSpec (requested state (tracerReq (runOps R {} ops) p))) L ix j) t.shape →
            ("*" ∈ p.dims → ∀ d ∈ wildSpec (requested state (tracerReq (runOps R {} ops) p)), ix d < L d) →
            SamePhysical R units
              (t.get (tracerIndex p.dims (wildSpec (requested state (tracerReq (runOps R {} ops) p))) L ix j))
              own (a.at' ix)) ∧
          (t'.shape = t.shape → name ∉ c.outProps.keys → ∃ da, new.get? name = some da ∧
            da.attrs = [("units", units)] ∧
            da.dims = outDimsSpec (p.dims.erase "tracer")
              (wildSpec (requested state (tracerReq (runOps R {} ops) p))) ∧
            da.arr.shape = da.dims.map L ∧
            ∀ ix : String → Nat, InB (da.dims.map ix) da.arr.shape →
              da.at' ix = t'.get (tracerIndex p.dims
                (wildSpec (requested state (tracerReq (runOps R {} ops) p))) L ix j)) := by
  unfold callStepper at h
  cases hprep : prepare R (runOps R {} ops) c i state with
  | error e => rw [hprep] at h; injection h with _ h; cases h
  | ok raw =>
    rw [hprep] at h
    dsimp only at h
    injection h with hs h
    obtain ⟨⟨rawD, rawN⟩, hac, hfin⟩ := Exc.bind_ok_iff.1 h
    obtain ⟨t, ht, hrt⟩ := prepare_tracers hpk hprep
    unfold finishStepper at hfin
    obtain ⟨tr, htr, hfin⟩ := Exc.bind_ok_iff.1 hfin
    obtain ⟨_, _, hfin⟩ := Exc.bind_ok_iff.1 hfin
    obtain ⟨_, _, hfin⟩ := Exc.bind_ok_iff.1 hfin
    obtain ⟨_, _, hfin⟩ := Exc.bind_ok_iff.1 hfin
    obtain ⟨dd, _, hfin⟩ := Exc.bind_ok_iff.1 hfin
    obtain ⟨td, htd, hfin⟩ := Exc.bind_ok_iff.1 hfin
    injection hfin with hfin
    injection hfin with _ hout
    unfold takeTracers at htr
    rw [hpk] at htr
    dsimp only at htr
    obtain ⟨t', ht', htr⟩ := Exc.bind_ok_iff.1 htr
    obtain ⟨tout, htout, htr⟩ := Exc.bind_ok_iff.1 htr
    cases htr
    obtain ⟨L, hL, hsh, hsl⟩ := packed_slices R hR ops p state t hwf hsf hdims hstar hp hne ht
    have hq : "tracer" ∈ p.dims := List.count_pos_iff.1 (by omega)
    have hin : ∃ raw0, getNumpyArrays R state (tracerReq (runOps R {} ops) p) = .ok raw0 := by
      unfold Packer.pack at ht
      rw [quantityDims_ok hq] at ht
      simp only [Exc.ok_bind] at ht
      obtain ⟨raw, hraw, _⟩ := Exc.bind_ok_iff.1 ht
      exact ⟨raw, hraw⟩
    refine ⟨raw, rawD, rawN, t, t', L, Prod.ext hs hac, hrt, Dict.get_eq_ok.1 ht', hsh, ?_⟩
    intro j name hj
    obtain ⟨units, a, own, g1, g2, g3, g4⟩ := hsl j name hj
    refine ⟨units, a, own, g1, g2, g3, g4, ?_⟩
    intro hshape hno
    obtain ⟨out, ho1, _, ho3⟩ := unpacked_values R ops p state t' "" L hwf hdims hstar hp hin
      hL.1 (hshape.trans hsh)
    rw [ho1] at htout
    cases htout
    obtain ⟨units', da, k1, k2, k3, k4, k5, k6⟩ := ho3 j name hj
    rw [g1] at k1; cases k1
    refine ⟨da, ?_, by simpa using k3, k4, k5, k6⟩
    rw [← hout]
    rw [Dict.get?_update _ _ (restore_nodup htd), k2,
      (Dict.get?_eq_none_iff _ _).2 (fun hm => hno ((restore_keys hn htd name).1 hm).1)]
    rfl

/-- Non-vacuity of C63: a component that returns the tracers it was given as
tendencies; `qv` is registered and `h` prepended in metres (km in the state). -/
def Demo.tracerAc : Nat → RawState → Nat × Except Err (Dict NDArray × Dict NDArray) := fun n raw =>
  (n + 1, (Demo.ac n raw).2 >>= fun r =>
    raw.arrays.get "tracers" >>= fun t => .ok (r.1.set "tracers" t, r.2))

example : Exc.test (callTendency Demo.reg (runOps Demo.reg {} [.register "p" "m"]) Demo.tracerCls
      ⟨"me", false, [], some ⟨[("h", "m")], ["z", "tracer"], ["T"]⟩⟩ Demo.tracerAc 0
      (Demo.state ++ [("p", .da Demo.prof)])).2
    (fun r => decide ((r.1.get? "h").map (fun a => (a.attrs, a.dims, a.arr.get [2])) =
        some ([("units", "m s^-1")], ["z"], 3000) ∧
      (r.1.get? "p").map (fun a => (a.attrs, a.dims, a.arr.get [1])) =
        some ([("units", "m s^-1")], ["z"], 2000))) = true := by decide +kernel

end Verif

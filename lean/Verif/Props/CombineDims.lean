import Verif.Props.Combine
/-!
# C64: the dims of combined properties

C27 says which quantities and units `combine_properties` returns; here the dims.
-/

namespace Verif

/-- The dims an entry asks for: its own, or those of the input of the same name. -/
def AsksDims (inP : PropDict) (n : String) (p : QProps) (d : List String) : Prop :=
  p.dims = some d ∨ (p.dims = none ∧ ∃ ip, inP.get? n = some ip ∧ ip.dims = some d)

theorem asksDims_iff {inP : PropDict} {n : String} {p : QProps} {d : List String} :
    AsksDims inP n p d ↔ combineEffDims inP n p = some d := by
  unfold AsksDims combineEffDims
  cases p.dims with
  | some e => simp
  | none =>
    cases inP.get? n with
    | none => simp
    | some ip => simp

/-- `d` is what the fold of `combine_dims` over `ds` returns. -/
structure CombinedFrom (d : List String) (ds : List (List String)) : Prop where
  named : ∀ x, x ≠ "*" → (x ∈ d ↔ ∃ e ∈ ds, x ∈ e)
  star : "*" ∈ d ↔ ∀ e ∈ ds, "*" ∈ e
  same : (∀ e ∈ ds, "*" ∉ e) → ∀ e ∈ ds, SameNamed d e

theorem combinedFrom_one (d : List String) : CombinedFrom d [d] :=
  ⟨fun x _ => by simp, by simp, fun _ e he => by
    rw [List.mem_singleton] at he; subst he; exact fun _ _ => Iff.rfl⟩

theorem CombinedFrom.step {o : SetOrder} {d e d' : List String} {ds : List (List String)} (hds : ds ≠ [])
    (h : CombinedFrom d ds) (hc : combineDims o d e = .ok d') : CombinedFrom d' (ds ++ [e]) := by
  obtain ⟨m1, m2, m3⟩ := combineDims_mem hc
  refine ⟨?_, ?_, ?_⟩
  · intro x hx
    rw [m1 x hx, h.named x hx]
    simp only [List.mem_append, List.mem_singleton]
    constructor
    · rintro (⟨a, ha, hxa⟩ | hxe)
      · exact ⟨a, Or.inl ha, hxa⟩
      · exact ⟨e, Or.inr rfl, hxe⟩
    · rintro ⟨a, ha | rfl, hxa⟩
      · exact Or.inl ⟨a, ha, hxa⟩
      · exact Or.inr hxa
  · rw [m2, h.star]
    simp only [List.mem_append, List.mem_singleton]
    constructor
    · rintro ⟨h1, h2⟩ a (ha | rfl)
      · exact h1 a ha
      · exact h2
    · intro hh; exact ⟨fun a ha => hh a (Or.inl ha), hh e (Or.inr rfl)⟩
  · intro hno
    obtain ⟨a, ha⟩ := List.exists_mem_of_ne_nil _ hds
    have hd : "*" ∉ d := fun hs => hno a (by simp [ha]) (h.star.1 hs a ha)
    have hde : SameNamed d e := by
      rcases m3 with m3 | m3
      · exact absurd m3 hd
      · exact m3
    have hd' : SameNamed d' d := by
      intro x hx
      rw [m1 x hx]
      exact ⟨fun hh => hh.elim id (hde x hx).2, Or.inl⟩
    intro b hb x hx
    rw [hd' x hx]
    simp only [List.mem_append, List.mem_singleton] at hb
    rcases hb with hb | rfl
    · exact h.same (fun c hc => hno c (by simp [hc])) b hb x hx
    · exact hde x hx

theorem combineDict_dims {R : Registry} {o : SetOrder} {inP : PropDict} (l : PropDict) {out res : PropDict}
    (pre : String → List (List String))
    (hpre : ∀ n r, out.get? n = some r → ∃ d, r.dims = some d ∧ pre n ≠ [] ∧ CombinedFrom d (pre n))
    (hnone : ∀ n, out.get? n = none → pre n = [])
    (h : combineDict R o inP l out = .ok res) (n : String) (r : QProps) (hr : res.get? n = some r) :
    ∃ ds d, List.Forall₂ (AsksDims inP n) (entriesOf [l] n) ds ∧ r.dims = some d ∧
      CombinedFrom d (pre n ++ ds) := by
  induction l generalizing out pre with
  | nil =>
    injection h with h; subst h
    obtain ⟨d, h1, _, h3⟩ := hpre n r hr
    exact ⟨[], d, List.Forall₂.nil, h1, by rw [List.append_nil]; exact h3⟩
  | cons kv l ih =>
    obtain ⟨k, p⟩ := kv
    unfold combineDict at h
    obtain ⟨mid, hm, h⟩ := Exc.bind_ok_iff.1 h
    obtain ⟨e1, _, e3⟩ := combineEntry_ok hm
    have hdp : ∃ dp, combineEffDims inP k p = some dp := by
      rcases e3 with ⟨_, r', _, _, _, g4, g5⟩ | ⟨_, _, _, _, _, _, dp, _, _, _, _, _, _, _, g, _⟩
      · rw [g4] at g5; exact Option.isSome_iff_exists.1 g5
      · exact ⟨dp, g⟩
    obtain ⟨dp, hdp⟩ := hdp
    have hmid : ∃ r' d', mid.get? k = some r' ∧ r'.dims = some d' ∧ CombinedFrom d' (pre k ++ [dp]) := by
      rcases e3 with ⟨g0, r', g1, _, _, g4, _⟩ | ⟨r0, r', _, _, d, d0, dp', g0, g1, g2, _, _, _, g6, g7, g8⟩
      · refine ⟨r', dp, g1, g4.trans hdp, ?_⟩
        rw [hnone k g0]; exact combinedFrom_one dp
      · rw [hdp] at g7; injection g7 with g7; subst g7
        obtain ⟨d1, a1, a2, a3⟩ := hpre k r0 g0
        rw [g6] at a1; injection a1 with a1; subst a1
        exact ⟨r', d, g1, by rw [g2], a3.step a2 g8⟩
    have hA : ∀ m r, mid.get? m = some r → ∃ d, r.dims = some d ∧
        (if m = k then pre k ++ [dp] else pre m) ≠ [] ∧
        CombinedFrom d (if m = k then pre k ++ [dp] else pre m) := by
      intro m rm hrm
      by_cases hk : m = k
      · subst hk
        obtain ⟨r', d', b1, b2, b3⟩ := hmid
        rw [b1] at hrm; injection hrm with hrm; subst hrm
        exact ⟨d', b2, by simp, by simpa using b3⟩
      · rw [e1 m hk] at hrm
        simp only [hk, if_false]
        exact hpre m rm hrm
    have hB : ∀ m, mid.get? m = none → (if m = k then pre k ++ [dp] else pre m) = [] := by
      intro m hm'
      by_cases hk : m = k
      · subst hk
        obtain ⟨r', _, b1, _⟩ := hmid
        rw [b1] at hm'; cases hm'
      · rw [e1 m hk] at hm'
        simp only [hk, if_false]
        exact hnone m hm'
    obtain ⟨ds, d, i1, i2, i3⟩ := ih (out := mid) (fun m => if m = k then pre k ++ [dp] else pre m) hA hB h
    rw [entries_cons]
    by_cases hk : k = n
    · subst hk
      simp only [if_true] at i3 ⊢
      exact ⟨dp :: ds, d, List.Forall₂.cons (asksDims_iff.2 hdp) i1, i2, by
        rw [List.append_assoc] at i3; exact i3⟩
    · have hk' : n ≠ k := Ne.symm hk
      simp only [hk, hk', if_false, List.nil_append] at i3 ⊢
      exact ⟨ds, d, i1, i2, i3⟩

theorem combined_dims_fold {R : Registry} {o : SetOrder} {l : List PropDict} {inP res : PropDict}
    (h : combineProperties R o l inP = .ok res) {n : String} {r : QProps} (hr : res.get? n = some r) :
    ∃ ds d, List.Forall₂ (AsksDims inP n) (entriesOf l n) ds ∧ r.dims = some d ∧ CombinedFrom d ds := by
  unfold combineProperties at h
  rw [combineLoop_eq] at h
  obtain ⟨ds, d, h1, h2, h3⟩ := combineDict_dims l.flatten (fun _ => [])
    (fun _ _ h => (by cases h)) (fun _ _ => rfl) h n r hr
  refine ⟨ds, d, ?_, h2, h3⟩
  have : entriesOf l n = entriesOf [l.flatten] n := by unfold entriesOf; simp
  rw [this]; exact h1

/-- What one entry asks for is determined. -/
theorem AsksDims.unique {inP : PropDict} {n : String} {p : QProps} {a b : List String}
    (h1 : AsksDims inP n p a) (h2 : AsksDims inP n p b) : a = b := by
  rw [asksDims_iff] at h1 h2
  rw [h1] at h2; injection h2

theorem forall₂_mem_left {α β : Type} {P : α → β → Prop} {l : List α} {m : List β}
    (h : List.Forall₂ P l m) {a : α} (ha : a ∈ l) : ∃ b ∈ m, P a b := by
  induction h with
  | nil => cases ha
  | cons hab _ ih =>
    rcases List.mem_cons.1 ha with rfl | ha
    · exact ⟨_, by simp, hab⟩
    · obtain ⟨b, hb, h⟩ := ih ha; exact ⟨b, by simp [hb], h⟩

theorem forall₂_mem_right {α β : Type} {P : α → β → Prop} {l : List α} {m : List β}
    (h : List.Forall₂ P l m) {b : β} (hb : b ∈ m) : ∃ a ∈ l, P a b := by
  induction h with
  | nil => cases hb
  | cons hab _ ih =>
    rcases List.mem_cons.1 hb with rfl | hb
    · exact ⟨_, by simp, hab⟩
    · obtain ⟨a, ha, h⟩ := ih hb; exact ⟨a, by simp [ha], h⟩

/-- **C64, contents.**  Every combined quantity has dims; they name exactly the dims
some entry asks for, and have a wildcard exactly if all entries do. -/
theorem combined_dims_exact (R : Registry) (o : SetOrder) (l : List PropDict) (inP res : PropDict)
    (h : combineProperties R o l inP = .ok res) (n : String) (r : QProps) (hr : res.get? n = some r) :
    ∃ d, r.dims = some d ∧
      (∀ x, x ≠ "*" → (x ∈ d ↔ ∃ p ∈ entriesOf l n, ∃ e, AsksDims inP n p e ∧ x ∈ e)) ∧
      ("*" ∈ d ↔ ∀ p ∈ entriesOf l n, ∃ e, AsksDims inP n p e ∧ "*" ∈ e) := by
  obtain ⟨ds, d, h1, h2, h3⟩ := combined_dims_fold h hr
  refine ⟨d, h2, ?_, ?_⟩
  · intro x hx
    rw [h3.named x hx]
    constructor
    · rintro ⟨e, he, hxe⟩
      obtain ⟨p, hp, ha⟩ := forall₂_mem_right h1 he
      exact ⟨p, hp, e, ha, hxe⟩
    · rintro ⟨p, hp, e, ha, hxe⟩
      obtain ⟨e', he', ha'⟩ := forall₂_mem_left h1 hp
      rw [ha.unique ha'] at hxe
      exact ⟨e', he', hxe⟩
  · rw [h3.star]
    constructor
    · intro hh p hp
      obtain ⟨e, he, ha⟩ := forall₂_mem_left h1 hp
      exact ⟨e, ha, hh e he⟩
    · intro hh e he
      obtain ⟨p, hp, ha⟩ := forall₂_mem_right h1 he
      obtain ⟨e', ha', hs⟩ := hh p hp
      rw [ha.unique ha']; exact hs

/-- **C64 (partial), soundness.**  When all or none of the entries for a quantity have
a wildcard, an array that can be used with the combined dims can be used for every
entry.  Missing: entries with and without wildcard together, where the claim is false
(`combined_dims_unsound`). -/
theorem combined_dims_sound_partial (R : Registry) (o : SetOrder) (l : List PropDict) (inP res : PropDict)
    (h : combineProperties R o l inP = .ok res) (n : String) (r : QProps) (hr : res.get? n = some r)
    (d : List String) (hd : r.dims = some d)
    (hw : (∀ p ∈ entriesOf l n, ∀ e, AsksDims inP n p e → "*" ∈ e) ∨
      (∀ p ∈ entriesOf l n, ∀ e, AsksDims inP n p e → "*" ∉ e))
    (q : List String) (hq : Acceptable q d) :
    ∀ p ∈ entriesOf l n, ∃ e, AsksDims inP n p e ∧ Acceptable q e := by
  obtain ⟨ds, d', h1, h2, h3⟩ := combined_dims_fold h hr
  rw [hd] at h2; injection h2 with h2; subst h2
  intro p hp
  obtain ⟨e, he, ha⟩ := forall₂_mem_left h1 hp
  refine ⟨e, ha, fun x hx hne => hq.1 x ((h3.named x hne).2 ⟨e, he, hx⟩) hne, ?_⟩
  intro x hx
  rcases hw with hw | hw
  · exact Or.inr (hw p hp e ha)
  · left
    have hno : ∀ e ∈ ds, "*" ∉ e := by
      intro e he
      obtain ⟨p, hp, ha⟩ := forall₂_mem_right h1 he
      exact hw p hp e ha
    have hds : "*" ∉ d := fun hs => hno e he (h3.star.1 hs e he)
    rcases hq.2 x hx with hxd | hs
    · by_cases hne : x = "*"
      · subst hne; exact absurd hxd hds
      · exact (h3.same hno e he x hne).1 hxd
    · exact absurd hs hds

/-- **C64, generality.**  An array that can be used for every entry can be used with
the combined dims. -/
theorem combined_dims_general (R : Registry) (o : SetOrder) (l : List PropDict) (inP res : PropDict)
    (h : combineProperties R o l inP = .ok res) (n : String) (r : QProps) (hr : res.get? n = some r)
    (d : List String) (hd : r.dims = some d) (q : List String) (hstar : "*" ∉ q)
    (hq : ∀ p ∈ entriesOf l n, ∀ e, AsksDims inP n p e → Acceptable q e) : Acceptable q d := by
  obtain ⟨d', h1, h2, h3⟩ := combined_dims_exact R o l inP res h n r hr
  rw [hd] at h1; injection h1 with h1; subst h1
  constructor
  · intro x hx hne
    obtain ⟨p, hp, e, ha, hxe⟩ := (h2 x hne).1 hx
    exact (hq p hp e ha).1 x hxe hne
  · intro x hx
    have hne : x ≠ "*" := fun e => hstar (e ▸ hx)
    by_cases hs : "*" ∈ d
    · exact Or.inr hs
    · left
      obtain ⟨ds, d'', f1, f2, f3⟩ := combined_dims_fold h hr
      rw [hd] at f2; injection f2 with f2; subst f2
      rw [f3.star] at hs
      simp only [not_forall] at hs
      obtain ⟨e, he, hse⟩ := hs
      obtain ⟨p, hp, ha⟩ := forall₂_mem_right f1 he
      rcases (hq p hp e ha).2 x hx with hxe | hxe
      · exact (h2 x hne).2 ⟨p, hp, e, ha, hxe⟩
      · exact absurd hxe hse

/-- **C64, missing dims.**  An entry without dims for a quantity that is not among the
inputs (or has no dims there) is rejected. -/
theorem combined_dims_missing (R : Registry) (o : SetOrder) (l : List PropDict) (inP : PropDict)
    (hk : KnownUnits R l) (n : String) (p : QProps) (hp : p ∈ entriesOf l n)
    (hno : ∀ d, ¬ AsksDims inP n p d) :
    combineProperties R o l inP = .error .invalidPropertyDict := by
  cases h : combineProperties R o l inP with
  | ok res =>
    have hn : n ∈ res.keys := by
      rw [(combined_properties_cover R o l inP res h).1]
      unfold entriesOf at hp
      obtain ⟨kv, hkv, he⟩ := List.mem_filterMap.1 hp
      obtain ⟨d, hd, hkv⟩ := List.mem_flatten.1 hkv
      refine ⟨d, hd, ?_⟩
      split at he
      · rename_i hkn; rw [← hkn]; exact Dict.mem_keys_of_mem hkv
      · cases he
    obtain ⟨r, hr⟩ := Dict.get?_of_mem_keys hn
    obtain ⟨ds, d, h1, _⟩ := combined_dims_fold h hr
    obtain ⟨e, _, ha⟩ := forall₂_mem_left h1 hp
    exact absurd ha (hno e)
  | error e =>
    unfold combineProperties at h
    rw [combineLoop_eq] at h
    rw [combineDict_error _ ?_ ?_ h]
    · intro kv hkv
      obtain ⟨d, hd, hkv⟩ := List.mem_flatten.1 hkv
      exact hk d hd kv hkv
    · intro n r hr; cases hr

/-- Counterexample to C64: entries `['*', 'z']` and `['y']` are combined to dims that
accept an array on (z, y), which the second entry does not. -/
theorem combined_dims_unsound (o : SetOrder) :
    ∃ res r d, combineProperties Demo.reg o
        [[("T", { dims := some ["*", "z"], units := some "K" })],
         [("T", { dims := some ["y"], units := some "K" })]] = .ok res ∧
      res.get? "T" = some r ∧ r.dims = some d ∧ Acceptable ["z", "y"] d ∧ ¬ Acceptable ["z", "y"] ["y"] := by
  obtain ⟨d, h, h1, h2⟩ := combine_dims_unsound o
  have hc : Demo.reg.unitsAreCompatible "K" "K" = .ok true := by
    have : Exc.test (Demo.reg.unitsAreCompatible "K" "K") (fun b => b) = true := by decide +kernel
    obtain ⟨b, hb, hf⟩ := Exc.test_ok this
    rw [hb, hf]
  refine ⟨[("T", { dims := some d, units := some "K" })], { dims := some d, units := some "K" }, d, ?_, rfl, rfl, h1, h2⟩
  have h1 : combineEntry Demo.reg o [] [] "T" { dims := some ["*", "z"], units := some "K" } =
      .ok [("T", { dims := some ["*", "z"], units := some "K" })] := rfl
  have h2 : combineEntry Demo.reg o [] [("T", { dims := some ["*", "z"], units := some "K" })] "T"
      { dims := some ["y"], units := some "K" } = .ok [("T", { dims := some d, units := some "K" })] := by
    unfold combineEntry
    have hg : Dict.get? [("T", ({ dims := some ["*", "z"], units := some "K" } : QProps))] "T" =
        some { dims := some ["*", "z"], units := some "K" } := rfl
    rw [hg]
    simp only [hc, Exc.ok_bind, combineEffDims, h, Bool.not_true, Bool.false_eq_true, if_false]
    rfl
  unfold combineProperties
  rw [combineLoop_eq]
  simp only [List.flatten_cons, List.flatten_nil, List.append_nil, List.cons_append, List.nil_append]
  unfold combineDict
  rw [h1, Exc.ok_bind]
  unfold combineDict
  rw [h2]; rfl

/-- Non-vacuity of C64: an entry without dims takes those of the input; an array with
dims (y, z, x) is acceptable for all. -/
example : Exc.test (combineProperties Demo.reg Demo.order
    [[("T", { dims := some ["*", "z"], units := some "K" })], [("T", { units := some "degC" })]]
    [("T", { dims := some ["y", "*"], units := some "K" })])
    (fun r => decide (r = [("T", { dims := some ["*", "z", "y"], units := some "K" })])) = true ∧
    Exc.failsWith (combineProperties Demo.reg Demo.order
      [[("T", { dims := some ["*", "z"], units := some "K" })], [("T", { units := some "degC" })]] [])
      .invalidPropertyDict = true := by decide +kernel

example : Acceptable ["y", "z", "x"] ["*", "z", "y"] ∧ Acceptable ["y", "z", "x"] ["*", "z"] ∧
    Acceptable ["y", "z", "x"] ["y", "*"] := by
  refine ⟨?_, ?_, ?_⟩ <;> constructor <;> simp

end Verif

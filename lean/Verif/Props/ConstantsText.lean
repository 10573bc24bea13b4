import Verif.Props.Constants
import Verif.Spec.ConstantsText
/-!
# C48: the text of the constants, line by line
-/

namespace Verif

theorem foldr_text_append (a b : List String) (acc : String) :
    (a ++ b).foldr (fun l rest => l ++ "\n" ++ rest) acc =
      a.foldr (fun l rest => l ++ "\n" ++ rest) "" ++ b.foldr (fun l rest => l ++ "\n" ++ rest) acc := by
  induction a with
  | nil => simp
  | cons x a ih => rw [List.cons_append, List.foldr_cons, List.foldr_cons, ih, ← String.append_assoc]

theorem textOfLines_append (a b : List String) : textOfLines (a ++ b) = textOfLines a ++ textOfLines b :=
  foldr_text_append a b ""

theorem string_join_cons (a : String) (l : List String) : String.join (a :: l) = a ++ String.join l := by
  have gen : ∀ (l : List String) (acc : String), l.foldl (· ++ ·) acc = acc ++ String.join l := by
    intro l
    induction l with
    | nil => intro acc; simp [String.join]
    | cons a l ih =>
      intro acc
      unfold String.join
      rw [List.foldl_cons, List.foldl_cons, ih, ih, String.append_assoc]
      simp
  have h : String.join (a :: l) = l.foldl (· ++ ·) ("" ++ a) := rfl
  rw [h, gen, String.empty_append]

/-- The lines that a loop prints, if each is that of a value found. -/
theorem mapM_lines {f : String → Except Err String} {g : String → String} {names lines : List String}
    (h : names.mapM f = .ok lines) (hg : ∀ n ∈ names, ∀ l, f n = .ok l → l = g n ++ "\n") :
    String.join lines = textOfLines (names.map g) := by
  induction names generalizing lines with
  | nil =>
    have : lines = [] := by
      rw [List.mapM_nil] at h
      exact (Except.ok.inj h).symm
    subst this
    rfl
  | cons n names ih =>
    rw [List.mapM_cons] at h
    obtain ⟨l, hl, h⟩ := Exc.bind_ok_iff.1 h
    obtain ⟨ls, hls, h⟩ := Exc.bind_ok_iff.1 h
    have : lines = l :: ls := (Except.ok.inj h).symm
    subst this
    rw [string_join_cons, ih hls fun n hn => hg n (List.mem_cons_of_mem _ hn), hg n (List.mem_cons_self ..) l hl]
    rfl

theorem mapM_sections {f : String × List String → Except Err String} {g : String × List String → List String}
    {cats : List (String × List String)} {texts : List String} (h : cats.mapM f = .ok texts)
    (hg : ∀ c ∈ cats, ∀ t, f c = .ok t → t = textOfLines (g c)) :
    String.join texts = textOfLines (cats.flatMap g) := by
  induction cats generalizing texts with
  | nil =>
    have : texts = [] := by
      rw [List.mapM_nil] at h
      exact (Except.ok.inj h).symm
    subst this
    rfl
  | cons n names ih =>
    rw [List.mapM_cons] at h
    obtain ⟨l, hl, h⟩ := Exc.bind_ok_iff.1 h
    obtain ⟨ls, hls, h⟩ := Exc.bind_ok_iff.1 h
    have : texts = l :: ls := (Except.ok.inj h).symm
    subst this
    rw [string_join_cons, ih hls fun n hn => hg n (List.mem_cons_of_mem _ hn), hg n (List.mem_cons_self ..) l hl,
      List.flatMap_cons, textOfLines_append]

theorem proxyLoop_nodup (al : Dict String) (n : Nat) (d d' : Dict Const) (hd : (Dict.keys d).Nodup)
    (h : proxyLoop al n d = some d') : (Dict.keys d').Nodup := by
  induction n generalizing d with
  | zero => cases h
  | succ n ih =>
    unfold proxyLoop at h
    dsimp only at h
    split at h
    · injection h with h
      exact h ▸ hd
    · exact ih _ (Dict.nodup_keys_update hd _) h

theorem proxyDict_nodup (al : Dict String) (d : Dict Const) (hd : (Dict.keys d).Nodup) :
    (Dict.keys (proxyDict d al)).Nodup := by
  unfold proxyDict
  cases h : proxyLoop al (al.length + 1) d with
  | none => exact hd
  | some d' => exact proxyLoop_nodup al _ d d' hd h

/-- **C48.**  Whenever `get_constants_string` does not raise, after any history, its
text is, line by line: for each category its title, unless it is empty, the names under
it with the value and the units of the constant each stands for ("dimensionless" is not
printed), and an empty line; then, if there are other names, the title "User Defined",
their lines and an empty line.  These names are, without repetition, all the names that
stand for a constant. -/
theorem constants_string_text (R : Registry) (ops : List ConstOp) (fmt : Rat → String) (s : String)
    (h : constantsString fmt (afterHistory R ops) = .ok s) :
    ∃ (user : List String) (value : String → Const),
      ListsEveryName (afterHistory R ops) constantCategories user ∧
      (∀ n c, NameMeans (afterHistory R ops) n c → value n = c) ∧
      s = textOfLines
        (constantCategories.flatMap (fun cat => sectionLines cat.1
            (cat.2.map fun n => entryLine fmt n (value n).value ((value n).units.replace "dimensionless" ""))) ++
          if user = [] then []
          else sectionLines "User Defined" (user.map fun n => entryLine fmt n (value n).value (value n).units)) := by
  have hcats := (constants_string_succeeds R ops fmt).1 ⟨s, h⟩
  obtain ⟨x, hx, -⟩ := history_inv R ops
  have hlen : (afterHistory R ops).ad.length ≤ 100 := by rw [hx.table, aliasTable_length]; omega
  have hal : (Dict.keys (afterHistory R ops).ad).Nodup := by rw [hx.table]; exact aliasTable_nodup x
  have hdis : ∀ k ∈ Dict.keys (afterHistory R ops).cd, k ∉ Dict.keys (afterHistory R ops).ad := by
    rw [hx.table, aliasTable_keys]; exact hx.disjoint
  have hproxy := proxy_lists _ _ hal hdis
  have hnod := proxyDict_nodup (afterHistory R ops).ad _ hx.nodup
  unfold constantsString at h
  obtain ⟨texts, ht, h⟩ := Exc.bind_ok_iff.1 h
  dsimp only at h
  generalize hm : afterHistory R ops = m at *
  have huniq : ∀ n c, NameMeans m n c ↔ constItem m.cd m.ad n = .ok c := fun n c => (constItem_resolves hlen n c).symm
  let value : String → Const := fun n => match constItem m.cd m.ad n with | .ok c => c | .error _ => ⟨0, ""⟩
  have hvalue : ∀ n c, NameMeans m n c → value n = c := by
    intro n c hn
    have := (huniq n c).1 hn
    simp only [value, this]
  have hline : ∀ strip n l, constLine fmt m.cd m.ad strip n = .ok l →
      l = entryLine fmt n (value n).value (strip (value n).units) ++ "\n" := by
    intro strip n l hl
    unfold constLine at hl
    obtain ⟨c, hc, hl⟩ := Exc.bind_ok_iff.1 hl
    rw [hvalue n c ((huniq n c).2 hc)]
    exact (Except.ok.inj hl).symm
  refine ⟨(Dict.keys (proxyDict m.cd m.ad)).filter (· ∉ constantCategories.flatMap (·.2)), value, ⟨?_, ?_⟩, hvalue, ?_⟩
  · refine List.nodup_append.2 ⟨by decide +kernel, hnod.filter _, ?_⟩
    intro a ha b hb hab
    subst hab
    have := (List.mem_filter.1 hb).2
    simp only [decide_eq_true_eq] at this
    exact this ha
  · intro n
    rw [List.mem_append]
    constructor
    · rintro (hn | hn)
      · obtain ⟨cat, hcat, hn⟩ := List.mem_flatMap.1 hn
        obtain ⟨r, c, hrc⟩ := hcats cat hcat n hn
        exact ⟨c, r, hrc⟩
      · obtain ⟨c, hc⟩ := Dict.get?_of_mem_keys (List.mem_filter.1 hn).1
        exact ⟨c, (hproxy n c).1 hc⟩
    · rintro ⟨c, hc⟩
      by_cases hp : n ∈ constantCategories.flatMap (·.2)
      · exact .inl hp
      · exact .inr (List.mem_filter.2 ⟨Dict.mem_keys_of_get? ((hproxy n c).2 hc), by simpa using hp⟩)
  · have hjoin : String.join texts = textOfLines (constantCategories.flatMap (fun cat => sectionLines cat.1
        (cat.2.map fun n => entryLine fmt n (value n).value ((value n).units.replace "dimensionless" "")))) := by
      refine mapM_sections ht fun cat _ t htext => ?_
      unfold categoryText at htext
      obtain ⟨lines, hl, htext⟩ := Exc.bind_ok_iff.1 htext
      have htext : _ = t := Except.ok.inj htext
      subst htext
      rw [mapM_lines hl fun n _ l h => hline _ n l h]
      unfold sectionLines
      rw [textOfLines_append, textOfLines_append]
      have hnil : (cat.2.map fun n => entryLine fmt n (value n).value
          ((value n).units.replace "dimensionless" "")) = [] ↔ cat.2 = [] := List.map_eq_nil_iff
      by_cases hc : cat.2 = []
      · rw [if_pos hc, if_pos (hnil.2 hc)]
        rfl
      · rw [if_neg hc, if_neg (fun e => hc (hnil.1 e))]
        simp only [textOfLines, List.foldr_cons, List.foldr_nil, String.append_empty, String.empty_append]
    rw [textOfLines_append, ← hjoin]
    split at h
    · rename_i he
      rw [if_pos he]
      have := Except.ok.inj h
      subst this
      simp [textOfLines]
    · rename_i he
      rw [if_neg he]
      obtain ⟨lines, hl, h⟩ := Exc.bind_ok_iff.1 h
      have := Except.ok.inj h
      subst this
      rw [mapM_lines hl fun n _ l h => hline _ n l h]
      unfold sectionLines
      rw [if_neg (fun e => he (List.map_eq_nil_iff.1 e)), textOfLines_append, textOfLines_append]
      have h1 : textOfLines ["User Defined"] = "User Defined\n" := rfl
      have h2 : textOfLines [""] = "\n" := rfl
      rw [h1, h2, String.append_assoc, String.append_assoc, String.append_assoc]
      rfl

namespace Demo

-- a history after which the text has a section of user-defined names
example : ∃ s, constantsString (fun _ => "1") (afterHistory reg [.set "mountain_height" 2 "km"]) = .ok s :=
  constants_string_water reg _ _ (by simp)
example : NameMeans (afterHistory reg [.set "mountain_height" 2 "km"]) "mountain_height" ⟨2, "km"⟩ ∧
    "mountain_height" ∉ constantCategories.flatMap (·.2) :=
  ⟨⟨"mountain_height", ⟨0, .here (by decide +kernel)⟩, by decide +kernel⟩, by decide +kernel⟩

end Demo

end Verif

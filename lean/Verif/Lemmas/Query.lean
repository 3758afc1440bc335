import Verif.Model.Tool
import Verif.Spec.Query
import Verif.Lemmas.Cmd
import Verif.Lemmas.Reader

/-!
# Lemmas about query set and query groups files
-/

namespace Kws
open Spec

theorem readWords_eq (fuel : Nat) : ∀ s : IStream, Ready s → (words s.rest).length < fuel →
    readWords fuel s = words s.rest := by
  induction fuel with
  | zero => intro s _ h; omega
  | succ fuel ih =>
    intro s hs h
    unfold readWords
    cases hw : words s.rest with
    | nil =>
      have := IStream.getString_none hw
      revert this
      rcases s.getString with ⟨s', w⟩
      intro h'
      simp only at h'
      simp only [h']
    | cons w ws =>
      obtain ⟨r, e, e2⟩ := IStream.getString_word hs hw
      rw [e]
      simp only
      rw [ih _ (ready_rest r)]
      · simp only [e2]
      · rw [hw] at h
        simp only [List.length_cons] at h
        simp only [e2]
        omega

theorem words_length (n : Nat) : ∀ t : Str, t.length ≤ n → (words t).length ≤ t.length := by
  induction n with
  | zero =>
    intro t h
    have : t = [] := List.length_eq_zero_iff.1 (by omega)
    subst this
    simp [words]
  | succ n ih =>
    intro t h
    by_cases hb : Blank t
    · rw [words_nil.2 hb]; simp
    · obtain ⟨sp, w, r, e, _, hw, _, e2⟩ := words_split hb
      rw [e2]
      have hw1 : 0 < w.length := List.length_pos_iff.2 hw.1
      have hl : t.length = sp.length + (w.length + r.length) := by
        rw [e]; simp
      have := ih r (by omega)
      simp only [List.length_cons]
      omega

/-- `while (is >> s)` reads the words of the text. -/
theorem wordsOf_eq (t : Str) : wordsOf t = words t :=
  readWords_eq _ _ (ready_start t) (by
    have := words_length t.length t (le_refl _)
    change (words t).length < t.length + 1
    omega)

section
variable {μ Q : Type} [DecidableEq Q]

theorem find?_setAll {β : Type} (qs : List Q) (g : Q → β) (m : List (Q × β)) (n : Q) :
    AMap.find? n (qs.foldl (fun m q => AMap.set q (g q) m) m) =
      if n ∈ qs then some (g n) else AMap.find? n m := by
  induction qs generalizing m with
  | nil => simp
  | cons q qs ih =>
    rw [List.foldl_cons, ih]
    by_cases h : n ∈ qs
    · simp [h]
    · simp only [h, if_false, List.mem_cons, or_false]
      rw [AMap.find?_set]
      split
      · rename_i e; rw [e]
      · rfl

/-- The lookups of a mapper on the strings `T` are given by `id`; `St h m` says that `m` is the state
after looking up `h`. -/
def Names (mapQuery : μ → Str → μ × Cpp Q) (T : List Str) (id : Str → Q)
    (St : List Str → μ → Prop) : Prop :=
  ∀ h w rest m, T = h ++ w :: rest → St h m →
    ∃ m', mapQuery m w = (m', .ok (id w)) ∧ St (h ++ [w]) m'

omit [DecidableEq Q] in
theorem Names.mapQueries {mapQuery : μ → Str → μ × Cpp Q} {T : List Str} {id : Str → Q}
    {St : List Str → μ → Prop} (hN : Names mapQuery T id St) (ws : List Str) :
    ∀ h rest m, T = h ++ (ws ++ rest) → St h m →
      ∃ m', mapQueries mapQuery m ws = (m', .ok (ws.map id)) ∧ St (h ++ ws) m' := by
  induction ws with
  | nil => intro h rest m _ hm; exact ⟨m, rfl, by simpa using hm⟩
  | cons w ws ih =>
    intro h rest m hT hm
    obtain ⟨m1, e1, h1⟩ := hN h w (ws ++ rest) m hT hm
    obtain ⟨m2, e2, h2⟩ := ih (h ++ [w]) rest m1 (by rw [hT]; simp) h1
    refine ⟨m2, ?_, by simpa using h2⟩
    simp only [Kws.mapQueries, e1, e2, List.map_cons]

theorem readQuerySet_names {mapQuery : μ → Str → μ × Cpp Q} {T : List Str} {id : Str → Q}
    {St : List Str → μ → Prop} (hN : Names mapQuery T id St) (m : μ) (text : Str)
    (hT : T = words text) (hm : St [] m) :
    ∃ m', readQuerySet mapQuery m text =
      (m', .ok (((words text).map id).foldl (fun q2g q => AMap.set q q q2g) [])) := by
  obtain ⟨m', e, _⟩ := hN.mapQueries (words text) [] [] m (by simpa using hT) hm
  refine ⟨m', ?_⟩
  unfold readQuerySet
  rw [wordsOf_eq, e]

/-- One line of a groups file. -/
def groupLine (q2g : List (Q × Q)) (l : List Q) : List (Q × Q) :=
  match l with
  | [] => q2g
  | g :: qs => qs.foldl (fun q2g q => AMap.set q g q2g) q2g

/-- The lines of a groups file. -/
def groupList (mapQuery : μ → Str → μ × Cpp Q) : μ → List (Q × Q) → List Str →
    μ × Cpp (Option (List (Q × Q)))
  | m, q2g, [] => (m, .ok (some q2g))
  | m, q2g, l :: ls =>
    match mapQueries mapQuery m (words l) with
    | (m, .error f) => (m, .error f)
    | (m, .ok (g :: q :: qs)) => groupList mapQuery m (groupLine q2g (g :: q :: qs)) ls
    | (m, .ok _) => (m, .ok none)

theorem readGroupLines_end (mapQuery : μ → Str → μ × Cpp Q) (fuel : Nat) (m : μ)
    (q2g : List (Q × Q)) : readGroupLines mapQuery fuel m q2g ⟨[], true, false⟩ = (m, .ok (some q2g)) := by
  cases fuel with
  | zero => rfl
  | succ k => simp [readGroupLines, IStream.getline, IStream.good]

theorem readGroupLines_eq (mapQuery : μ → Str → μ × Cpp Q) (fuel : Nat) :
    ∀ (m : μ) (q2g : List (Q × Q)) (t : Str), t.length < fuel →
      readGroupLines mapQuery fuel m q2g ⟨t, false, false⟩ = groupList mapQuery m q2g (lines t) := by
  induction fuel with
  | zero => intro m q2g t h; omega
  | succ fuel ih =>
    intro m q2g t h
    cases t with
    | nil => simp [readGroupLines, IStream.getline, IStream.good, lines, groupList]
    | cons c r =>
      rw [lines_eq]
      have hlen : ((c :: r).dropWhile (· != '\n')).length ≤ (c :: r).length :=
        (List.dropWhile_sublist _).length_le
      cases hd : (c :: r).dropWhile (· != '\n') with
      | nil =>
        have hg : (IStream.mk (c :: r) false false).getline =
            (⟨[], true, false⟩, some ((c :: r).takeWhile (· != '\n'))) := by
          simp only [IStream.getline, IStream.good, Bool.not_false, Bool.and_self, if_true]
          rw [hd]
        rw [readGroupLines, hg]
        simp only [groupList, wordsOf_eq]
        rcases mapQueries mapQuery m (words ((c :: r).takeWhile (· != '\n'))) with ⟨m', _ | l⟩
        · rfl
        · match l with
          | [] => rfl
          | [_] => rfl
          | g :: q :: qs => exact readGroupLines_end mapQuery fuel m' _
      | cons x r' =>
        have hg : (IStream.mk (c :: r) false false).getline =
            (⟨r', false, false⟩, some ((c :: r).takeWhile (· != '\n'))) := by
          simp only [IStream.getline, IStream.good, Bool.not_false, Bool.and_self, if_true]
          rw [hd]
        have hr' : r'.length < fuel := by
          rw [hd] at hlen
          simp only [List.length_cons] at hlen h
          omega
        rw [readGroupLines, hg]
        simp only [groupList, wordsOf_eq]
        rcases mapQueries mapQuery m (words ((c :: r).takeWhile (· != '\n'))) with ⟨m', _ | l⟩
        · rfl
        · match l with
          | [] => rfl
          | [_] => rfl
          | g :: q :: qs => exact ih m' _ r' hr'

theorem groupList_names {mapQuery : μ → Str → μ × Cpp Q} {T : List Str} {id : Str → Q}
    {St : List Str → μ → Prop} (hN : Names mapQuery T id St) (ls : List Str) :
    ∀ h m q2g, T = h ++ (ls.map words).flatten → St h m →
      (WellFormedGroups (ls.map words) →
        ∃ m', groupList mapQuery m q2g ls =
          (m', .ok (some ((ls.map (fun l => (words l).map id)).foldl groupLine q2g)))) ∧
      (¬ WellFormedGroups (ls.map words) → ∃ m', groupList mapQuery m q2g ls = (m', .ok none)) := by
  induction ls with
  | nil =>
    intro h m q2g _ _
    exact ⟨fun _ => ⟨m, rfl⟩, fun hc => absurd (by intro l hl; simp at hl) hc⟩
  | cons l ls ih =>
    intro h m q2g hT hm
    simp only [List.map_cons, List.flatten_cons] at hT
    obtain ⟨m1, e1, h1⟩ := hN.mapQueries (words l) h _ m hT hm
    have ih := ih (h ++ words l) m1
    by_cases hl : 2 ≤ (words l).length
    · obtain ⟨g, q, qs, hw⟩ : ∃ g q qs, words l = g :: q :: qs := by
        match words l, hl with
        | g :: q :: qs, _ => exact ⟨g, q, qs, rfl⟩
      have hwf : WellFormedGroups ((l :: ls).map words) ↔ WellFormedGroups (ls.map words) := by
        unfold WellFormedGroups
        simp only [List.map_cons, List.mem_cons, forall_eq_or_imp, hl, true_and]
      have hstep : groupList mapQuery m q2g (l :: ls) =
          groupList mapQuery m1 (groupLine q2g ((words l).map id)) ls := by
        conv_lhs => unfold groupList
        rw [e1, hw]
        rfl
      rw [hwf, hstep]
      exact ih _ (by rw [hT]; simp) h1
    · have hstep : groupList mapQuery m q2g (l :: ls) = (m1, .ok none) := by
        simp only [groupList, e1]
        match hw : words l, hl with
        | [], _ => rfl
        | [_], _ => rfl
        | _ :: _ :: _, hl => exact absurd (by simp) hl
      refine ⟨fun hwf => absurd (hwf (words l) (by simp)) hl, fun _ => ⟨m1, hstep⟩⟩

theorem readQueryGroups_names {mapQuery : μ → Str → μ × Cpp Q} {T : List Str} {id : Str → Q}
    {St : List Str → μ → Prop} (hN : Names mapQuery T id St) (m : μ) (text : Str)
    (hT : T = ((lines text).map words).flatten) (hm : St [] m) :
    (WellFormedGroups ((lines text).map words) →
      ∃ m', readQueryGroups mapQuery m text =
        (m', .ok (some (((lines text).map (fun l => (words l).map id)).foldl groupLine [])))) ∧
    (¬ WellFormedGroups ((lines text).map words) →
      ∃ m', readQueryGroups mapQuery m text = (m', .ok none)) := by
  have := groupList_names hN (lines text) [] m [] (by simpa using hT) hm
  unfold readQueryGroups
  rwa [show IStream.ofStr text = ⟨text, false, false⟩ from rfl,
    readGroupLines_eq mapQuery _ m [] text (by omega)]

theorem find?_groupLine (q2g : List (Q × Q)) (l : List Q) (n : Q) :
    AMap.find? n (groupLine q2g l) = if n ∈ l.tail then l.head? else AMap.find? n q2g := by
  cases l with
  | nil => simp [groupLine]
  | cons g qs =>
    simp only [groupLine, List.tail_cons, List.head?_cons]
    exact find?_setAll qs (fun _ => g) q2g n

/-- The map read from a groups file. -/
theorem find?_groups (ls : List (List Q)) (n : Q) :
    AMap.find? n (ls.foldl groupLine []) = groupIn ls n := by
  induction ls using List.reverseRecOn with
  | nil => rfl
  | append_singleton ls l ih =>
    rw [List.foldl_append, List.foldl_cons, List.foldl_nil, find?_groupLine, ih]
    unfold groupIn
    rw [List.filter_append]
    by_cases h : n ∈ l.tail
    · simp [h]
    · simp [h]

theorem groupIn_isSome (ls : List (List Str)) (n : Str) :
    (groupIn ls n).isSome = true ↔ n ∈ listedIn ls := by
  unfold groupIn listedIn
  induction ls using List.reverseRecOn with
  | nil => simp
  | append_singleton ls l ih =>
    rw [List.filter_append]
    by_cases h : n ∈ l.tail
    · obtain ⟨a, b, e⟩ : ∃ a b, l = a :: b := by
        cases l with
        | nil => simp at h
        | cons a b => exact ⟨a, b, rfl⟩
      subst e
      simp only [List.tail_cons] at h
      simp [h]
    · simp only [h, decide_false, List.filter_cons, List.filter_nil, List.append_nil,
        Bool.false_eq_true, if_false, List.flatMap_append, List.flatMap_cons, List.flatMap_nil,
        List.mem_append, or_false]
      exact ih

end

/-- The identity mapper names every string by itself. -/
theorem names_identity {μ : Type} {mapQuery : μ → Str → μ × Cpp Str}
    (hid : ∀ m q, mapQuery m q = (m, .ok q)) (T : List Str) :
    Names mapQuery T id (fun _ _ => True) :=
  fun _ w _ m _ _ => ⟨m, hid m w, trivial⟩

theorem amap_nil_iff {Q β : Type} [DecidableEq Q] (m : List (Q × β)) :
    m = [] ↔ ∀ q, AMap.find? q m = none := by
  constructor
  · rintro rfl q; rfl
  · intro h
    cases m with
    | nil => rfl
    | cons a m =>
      have := h a.1
      simp [AMap.find?] at this

/-- Filtering by a map that has exactly the listed queries. -/
theorem filter_keep {E : Type} (q2g : List (Str × Str)) (listed : List Str)
    (h : ∀ q, (AMap.find? q q2g).isSome = true ↔ q ∈ listed) (query : E → Str) (es : List E) :
    (if q2g = [] then es else filterEvents q2g query es) = keep query listed es := by
  have hnil : q2g = [] ↔ listed = [] := by
    rw [amap_nil_iff, List.eq_nil_iff_forall_not_mem]
    refine forall_congr' fun q => ?_
    rw [← h q]
    cases AMap.find? q q2g <;> simp
  unfold keep filterEvents
  by_cases hl : listed = []
  · rw [if_pos hl, if_pos (hnil.2 hl)]
  · rw [if_neg hl, if_neg (fun hc => hl (hnil.1 hc))]
    refine List.filter_congr fun e _ => ?_
    rw [Bool.eq_iff_iff, h]
    simp

end Kws

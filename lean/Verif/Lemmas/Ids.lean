import Verif.Lemmas.Relabel
import Verif.Props.Mapper
import Mathlib.Logic.Equiv.List

/-!
# Runs of the segmentation-based tool: strings and their ids
-/

namespace Kws
open Spec

/-! ## Words and lines -/

theorem words_append_space (a b : Str) (c : Char) (hc : isSpace c = true) :
    words (a ++ c :: b) = words a ++ words b := by
  induction a with
  | nil => simp [words, hc]
  | cons x a ih =>
    by_cases hx : isSpace x = true
    · simp only [List.cons_append, words, hx, if_true]
      exact ih
    · cases a with
      | nil =>
        simp only [List.cons_append, List.nil_append, words, hx, hc, if_true]
        rfl
      | cons d a =>
        have ih : words (d :: (a ++ c :: b)) = words (d :: a) ++ words b := ih
        by_cases hd : isSpace d = true
        · have e1 : words (x :: d :: (a ++ c :: b)) = [x] :: words (d :: (a ++ c :: b)) := by
            conv_lhs => unfold words
            rw [if_neg hx]
            simp only [hd, if_true]
          have e2 : words (x :: d :: a) = [x] :: words (d :: a) := by
            conv_lhs => unfold words
            rw [if_neg hx]
            simp only [hd, if_true]
          rw [List.cons_append, List.cons_append, e1, e2, ih, List.cons_append]
        · have e1 : words (x :: d :: (a ++ c :: b)) = (match words (d :: (a ++ c :: b)) with
              | [] => [[x]]
              | w :: ws => (x :: w) :: ws) := by
            conv_lhs => unfold words
            rw [if_neg hx]
            simp only [hd, if_false, Bool.false_eq_true]
            cases words (d :: (a ++ c :: b)) <;> rfl
          have e2 : words (x :: d :: a) = (match words (d :: a) with
              | [] => [[x]]
              | w :: ws => (x :: w) :: ws) := by
            conv_lhs => unfold words
            rw [if_neg hx]
            simp only [hd, if_false, Bool.false_eq_true]
            cases words (d :: a) <;> rfl
          rw [List.cons_append, List.cons_append, e1, e2, ih]
          cases hw : words (d :: a) with
          | nil =>
            have := words_nil.1 hw d (by simp)
            exact absurd this hd
          | cons w ws => rfl

theorem words_lines (t : Str) : words t = ((lines t).map words).flatten := by
  induction ht : t.length using Nat.strong_induction_on generalizing t with
  | _ n ih =>
    cases t with
    | nil => simp [words, lines]
    | cons c r =>
      rw [lines_eq]
      have e := List.takeWhile_append_dropWhile (p := (· != '\n')) (l := c :: r)
      have hlen : ((c :: r).dropWhile (· != '\n')).length ≤ (c :: r).length :=
        (List.dropWhile_sublist _).length_le
      cases hd : (c :: r).dropWhile (· != '\n') with
      | nil =>
        rw [hd, List.append_nil] at e
        simp only [List.map_cons, List.map_nil, List.flatten_cons, List.flatten_nil, List.append_nil]
        rw [e]
      | cons x r' =>
        have hx : x = '\n' := by
          have := List.head?_dropWhile_not (p := (· != '\n')) (c :: r)
          rw [hd] at this
          simpa using this
        rw [hd] at e hlen
        conv_lhs => rw [← e]
        rw [words_append_space _ _ _ (by rw [hx]; decide), List.map_cons, List.flatten_cons,
          ih r'.length (by simp only [List.length_cons] at hlen ht; omega) r' rfl]

/-! ## The strings of the events that are read -/

theorem mem_readLines {E : Type} (ex : Extractor E) (ls : List Str) : ∀ (n : Nat) (e : E),
    e ∈ (readLines ex identityMap n () ls).2.1 → ∃ l ∈ ls, readLine ex l = .event e := by
  induction ls with
  | nil => intro n e h; simp [readLines] at h
  | cons l ls ih =>
    intro n e h
    simp only [readLines] at h
    cases hr : readLine ex l with
    | skip =>
      rw [hr] at h
      obtain ⟨l', h1, h2⟩ := ih _ _ h
      exact ⟨l', by simp [h1], h2⟩
    | bad => rw [hr] at h; simp at h
    | fault f => rw [hr] at h; simp at h
    | event x =>
      rw [hr] at h
      simp only [identityMap] at h
      rcases List.mem_cons.1 h with rfl | h
      · exact ⟨l, by simp, hr⟩
      · obtain ⟨l', h1, h2⟩ := ih _ _ h
        exact ⟨l', by simp [h1], h2⟩

theorem mem_readPlain {E : Type} (ex : Extractor E) (t : Str) (e : E) (h : e ∈ (readPlain ex t).1) :
    ∃ l ∈ lines t, readLine ex l = .event e := by
  unfold readPlain at h
  rw [readEvents_lines] at h
  exact mem_readLines ex _ _ e h

theorem words_of_line {t l : Str} (hl : l ∈ lines t) : words l ⊆ words t := by
  intro x hx
  rw [words_lines]
  exact List.mem_flatten.2 ⟨_, List.mem_map_of_mem hl, hx⟩

theorem ref_strings (t : Str) (e : Event Str Str) (h : e ∈ (readPlain extractStrEvent t).1) :
    e.query ∈ words t ∧ e.location ∈ words t := by
  obtain ⟨l, hl, hr⟩ := mem_readPlain _ _ _ h
  have := (C48_str_words l e).1 ((Format.strRefs (R := Rnd.exact)).readLine_event l e |>.1 hr).2
  constructor <;> exact words_of_line hl (by simp [this])

theorem hyp_strings (R : Rnd) (t : Str) (e : ScoredEvent Str Str)
    (h : e ∈ (readPlain (extractScored R extractStrEvent) t).1) :
    e.base.query ∈ words t ∧ e.base.location ∈ words t := by
  obtain ⟨l, hl, hr⟩ := mem_readPlain _ _ _ h
  obtain ⟨n, q, hw, _⟩ := (C48_scored_str_words R l e).1
    ((Format.strHyps (R := R)).readLine_event l e |>.1 hr).2
  constructor <;> exact words_of_line hl (by simp [hw])

/-! ## Mapping -/

theorem firsts_length_le (a b : List Str) : (firsts a).length ≤ (firsts (a ++ b)).length := by
  obtain ⟨more, e⟩ := firsts_append a b
  rw [e]
  simp

theorem firsts_length_subset (T V : List Str) (h : T ⊆ V) : (firsts T).length ≤ V.dedup.length :=
  ((firsts_nodup T).subperm (fun x hx => List.mem_dedup.2 (h ((mem_firsts T x).1 hx)))).length_le

theorem strings_mem (qf : Bool) (e : Event Str Str) (s : Str) :
    s ∈ strings qf e ↔ s = e.query ∨ s = e.location := by
  unfold strings
  cases qf <;> simp [or_comm]

namespace IntMapper

theorem mapEvent_ids (qf : Bool) (maxInt : Nat) (m : IntMapper) (T past rest : List Str)
    (e : Event Str Str) (hT : T = past ++ strings qf e ++ rest)
    (hcap : (firsts T).length ≤ kMaxSize maxInt) (h : After (kMaxSize maxInt) m past) :
    ∃ m', m.mapEvent qf maxInt e = (m', .ok (e.rename (idOf T) (idOf T))) ∧
      After (kMaxSize maxInt) m' (past ++ strings qf e) := by
  have h1 : (firsts (past ++ strings qf e)).length ≤ kMaxSize maxInt := by
    refine le_trans ?_ hcap
    rw [hT]
    exact firsts_length_le _ _
  obtain ⟨m', e1, a1⟩ := mapEvent_after qf maxInt m past e h h1
  refine ⟨m', ?_, a1⟩
  rw [e1, hT]
  unfold Event.rename
  rw [idOf_append (past ++ strings qf e) rest e.query (by simp [strings_mem]),
    idOf_append (past ++ strings qf e) rest e.location (by simp [strings_mem])]

theorem mapEach_ids (qf : Bool) (maxInt : Nat) (T : List Str)
    (hcap : (firsts T).length ≤ kMaxSize maxInt) (es : List (Event Str Str)) :
    ∀ (m : IntMapper) (past rest : List Str), T = past ++ es.flatMap (strings qf) ++ rest →
      After (kMaxSize maxInt) m past →
      ∃ m', mapEach (IntMapper.mapEvent qf maxInt) m es =
          (m', es.map (Event.rename (idOf T) (idOf T)), none) ∧
        After (kMaxSize maxInt) m' (past ++ es.flatMap (strings qf)) := by
  induction es with
  | nil => intro m past rest _ h; exact ⟨m, rfl, by simpa using h⟩
  | cons e es ih =>
    intro m past rest hT h
    obtain ⟨m1, e1, a1⟩ := mapEvent_ids qf maxInt m T past (es.flatMap (strings qf) ++ rest) e
      (by rw [hT]; simp) hcap h
    obtain ⟨m2, e2, a2⟩ := ih m1 (past ++ strings qf e) rest (by rw [hT]; simp) a1
    refine ⟨m2, ?_, by simpa using a2⟩
    simp only [mapEach, e1, e2, List.map_cons]

theorem mapEachScored_ids (qf : Bool) (maxInt : Nat) (T : List Str)
    (hcap : (firsts T).length ≤ kMaxSize maxInt) (es : List (ScoredEvent Str Str)) :
    ∀ (m : IntMapper) (past rest : List Str),
      T = past ++ es.flatMap (fun e => strings qf e.base) ++ rest →
      After (kMaxSize maxInt) m past →
      ∃ m', mapEach (IntMapper.mapScoredEvent qf maxInt) m es =
          (m', es.map (ScoredEvent.rename (idOf T) (idOf T)), none) ∧
        After (kMaxSize maxInt) m' (past ++ es.flatMap (fun e => strings qf e.base)) := by
  induction es with
  | nil => intro m past rest _ h; exact ⟨m, rfl, by simpa using h⟩
  | cons e es ih =>
    intro m past rest hT h
    obtain ⟨m1, e1, a1⟩ := mapEvent_ids qf maxInt m T past
      (es.flatMap (fun e => strings qf e.base) ++ rest) e.base (by rw [hT]; simp) hcap h
    obtain ⟨m2, e2, a2⟩ := ih m1 (past ++ strings qf e.base) rest (by rw [hT]; simp) a1
    refine ⟨m2, ?_, by simpa using a2⟩
    simp only [mapEach, mapScoredEvent, e1, e2, List.map_cons]
    rfl

theorem names_ids (maxInt : Nat) (T past Q : List Str) (hT : T = past ++ Q)
    (hcap : (firsts T).length ≤ kMaxSize maxInt) :
    Names (IntMapper.lookup maxInt) Q (idOf T) (fun h m => After (kMaxSize maxInt) m (past ++ h)) := by
  intro h w rest m hQ hm
  obtain ⟨m', e1, a1⟩ := lookup_after maxInt m (past ++ h) w hm
  refine ⟨m', ?_, by simpa using a1⟩
  have e : T = (past ++ h ++ [w]) ++ rest := by rw [hT, hQ]; simp
  have h1 : idOf (past ++ h ++ [w]) w = idOf T w := by
    rw [e, idOf_append (past ++ h ++ [w]) rest w (by simp)]
  have h2 := idOf_lt T w (by rw [e]; simp)
  rw [e1, h1, if_pos (by omega)]

end IntMapper

/-! ## An injection that extends the ids -/

theorem extend_ids (T : List Str) : ∃ (f : Str → Nat) (N : Nat), Function.Injective f ∧
    (∀ s ∈ T, f s = idOf T s) ∧ ∀ s n, f s ≠ N + (2 * n + 1) := by
  have : Countable Char := Function.Injective.countable (f := Char.toNat) (fun a b h => by
    have := congrArg Char.ofNat h
    simpa using this)
  obtain ⟨code, hcode⟩ := exists_injective_nat Str
  refine ⟨fun s => if s ∈ T then idOf T s else (firsts T).length + 2 * code s, (firsts T).length,
    ?_, ?_, ?_⟩
  · intro a b h
    simp only at h
    by_cases ha : a ∈ T <;> by_cases hb : b ∈ T
    · rw [if_pos ha, if_pos hb] at h
      exact idOf_inj T a b ha h
    · rw [if_pos ha, if_neg hb] at h
      have := idOf_lt T a ha
      omega
    · rw [if_neg ha, if_pos hb] at h
      have := idOf_lt T b hb
      omega
    · rw [if_neg ha, if_neg hb] at h
      exact hcode (by omega)
  · intro s hs
    exact if_pos hs
  · intro s n
    by_cases hs : s ∈ T
    · simp only [if_pos hs]
      have := idOf_lt T s hs
      omega
    · simp only [if_neg hs]
      omega

/-! ## Query files -/

section
variable {Q Q' : Type} [DecidableEq Q] [DecidableEq Q']

theorem set_map_inj {f : Q → Q'} (hf : Function.Injective f) (k v : Q) (m : List (Q × Q)) :
    AMap.set (f k) (f v) (m.map (Prod.map f f)) = (AMap.set k v m).map (Prod.map f f) := by
  induction m with
  | nil => rfl
  | cons a m ih =>
    obtain ⟨k', v'⟩ := a
    simp only [List.map_cons, Prod.map_apply, AMap.set, hf.eq_iff]
    split
    · rfl
    · rw [ih]; rfl

theorem setSelf_map {f : Q → Q'} (hf : Function.Injective f) (qs : List Q) : ∀ m : List (Q × Q),
    (qs.map f).foldl (fun m q => AMap.set q q m) (m.map (Prod.map f f)) =
      (qs.foldl (fun m q => AMap.set q q m) m).map (Prod.map f f) := by
  induction qs with
  | nil => intro m; rfl
  | cons q qs ih => intro m; simp only [List.map_cons, List.foldl_cons, set_map_inj hf, ih]

theorem groupLine_map {f : Q → Q'} (hf : Function.Injective f) (l : List Q) (m : List (Q × Q)) :
    groupLine (m.map (Prod.map f f)) (l.map f) = (groupLine m l).map (Prod.map f f) := by
  cases l with
  | nil => rfl
  | cons g qs =>
    simp only [groupLine, List.map_cons]
    induction qs generalizing m with
    | nil => rfl
    | cons q qs ih => simp only [List.map_cons, List.foldl_cons, set_map_inj hf, ih]

theorem groupLines_map {f : Q → Q'} (hf : Function.Injective f) (ls : List (List Q)) :
    ∀ m : List (Q × Q), (ls.map (List.map f)).foldl groupLine (m.map (Prod.map f f)) =
      (ls.foldl groupLine m).map (Prod.map f f) := by
  induction ls with
  | nil => intro m; rfl
  | cons l ls ih => intro m; simp only [List.map_cons, List.foldl_cons, groupLine_map hf, ih]

end

/-- The words looked up in the query files. -/
def queryWords (w : World) (o : ToolOptions) : List Str :=
  if o.querySet ≠ [] ∧ o.queryGroups = [] then
    match w.file o.querySet with
    | none => []
    | some t => words t
  else if o.queryGroups ≠ [] then
    match w.file o.queryGroups with
    | none => []
    | some t => words t
  else []

/-- Query files read through ids are the renamed query files. -/
theorem readQueryMap_names {μ Q : Type} [DecidableEq Q] {mapQuery : μ → Str → μ × Cpp Q}
    {id' f : Str → Q} {St : List Str → μ → Prop} (hf : Function.Injective f) (w : World)
    (o : ToolOptions) (hN : Names mapQuery (queryWords w o) id' St) (m : μ) (hm : St [] m)
    (hid : ∀ s ∈ queryWords w o, f s = id' s) :
    (∃ q2g, readQueryMap (fun (m : Unit) q => (m, .ok q)) w o () = .ok (some q2g) ∧
      readQueryMap mapQuery w o m = .ok (some (q2g.map (Prod.map f f)))) ∨
    (readQueryMap (fun (m : Unit) q => (m, .ok q)) w o () = .ok none ∧
      readQueryMap mapQuery w o m = .ok none) := by
  have hI : ∀ T, Names (fun (m : Unit) (q : Str) => (m, (.ok q : Cpp Str))) T id (fun _ _ => True) :=
    fun T => names_identity (fun _ _ => rfl) T
  unfold queryWords at hN hid
  unfold readQueryMap
  by_cases h1 : o.querySet ≠ [] ∧ o.queryGroups = []
  · simp only [if_pos h1] at hN hid ⊢
    cases h2 : w.file o.querySet with
    | none => exact Or.inr ⟨rfl, rfl⟩
    | some t =>
      rw [h2] at hN hid
      obtain ⟨m1, e1⟩ := readQuerySet_names hN m t rfl hm
      obtain ⟨m2, e2⟩ := readQuerySet_names (hI (words t)) () t rfl trivial
      left
      refine ⟨((words t).map id).foldl (fun m q => AMap.set q q m) [], ?_, ?_⟩
      · simp only [e2, Except.map]
      · simp only [e1, Except.map]
        have : (words t).map id' = ((words t).map id).map f := by
          rw [List.map_id]
          exact List.map_congr_left (fun s hs => (hid s hs).symm)
        rw [this]
        exact congrArg (fun x => Except.ok (some x)) (setSelf_map hf _ [])
  · simp only [if_neg h1] at hN hid ⊢
    by_cases h2 : o.queryGroups ≠ []
    · simp only [if_pos h2] at hN hid ⊢
      cases h3 : w.file o.queryGroups with
      | none => exact Or.inr ⟨rfl, rfl⟩
      | some t =>
        rw [h3] at hN hid
        obtain ⟨a1, a2⟩ := readQueryGroups_names hN m t (words_lines t) hm
        obtain ⟨b1, b2⟩ := readQueryGroups_names (hI _) () t (words_lines t) trivial
        by_cases hw : WellFormedGroups ((lines t).map words)
        · obtain ⟨m1, e1⟩ := a1 hw
          obtain ⟨m2, e2⟩ := b1 hw
          left
          refine ⟨((lines t).map (fun l => (words l).map id)).foldl groupLine [], by simp only [e2], ?_⟩
          simp only [e1]
          have : (lines t).map (fun l => (words l).map id') =
              ((lines t).map (fun l => (words l).map id)).map (List.map f) := by
            rw [List.map_map]
            refine List.map_congr_left (fun l hl => ?_)
            simp only [Function.comp, List.map_id]
            exact List.map_congr_left (fun s hs => (hid s (words_of_line hl hs)).symm)
          rw [this]
          exact congrArg (fun x => Except.ok (some x)) (groupLines_map hf _ [])
        · obtain ⟨m1, e1⟩ := a2 hw
          obtain ⟨m2, e2⟩ := b2 hw
          right
          exact ⟨by simp only [e2], by simp only [e1]⟩
    · simp only [if_neg h2]
      exact Or.inl ⟨[], rfl, rfl⟩

/-! ## Runs -/

theorem kMax31 : IntMapper.kMaxSize (2 ^ 31 - 1) = 2 ^ 31 := by decide

theorem str_plain (R : Rnd) : PlainKit R (strKit R) extractStrEvent StrEventText :=
  ⟨.strRefs, .strHyps, rfl, rfl, rfl⟩

theorem str_seg (R : Rnd) : SegKit (strKit R) := ⟨rfl, rfl⟩

theorem simple_seg (R : Rnd) (qf : Bool) : SegKit (simpleKit R qf) := ⟨rfl, rfl⟩

section
variable {G' : Type}

theorem vocabulary_ref {w : World} {o : ToolOptions} {t : Str} (h : w.file o.refFilename = some t) :
    words t ⊆ vocabulary w o := by
  intro x hx
  unfold vocabulary
  exact List.mem_flatMap.2 ⟨t, by simp [h], hx⟩

theorem vocabulary_hyp {w : World} {o : ToolOptions} {t : Str} (h : hypText w o = some t) :
    words t ⊆ vocabulary w o := by
  intro x hx
  unfold vocabulary
  exact List.mem_flatMap.2 ⟨t, by simp [h], hx⟩

theorem vocabulary_query (w : World) (o : ToolOptions) : queryWords w o ⊆ vocabulary w o := by
  intro x hx
  unfold queryWords at hx
  unfold vocabulary
  split at hx
  · cases h : w.file o.querySet with
    | none => rw [h] at hx; simp at hx
    | some t => rw [h] at hx; exact List.mem_flatMap.2 ⟨t, by simp, hx⟩
  · split at hx
    · cases h : w.file o.queryGroups with
      | none => rw [h] at hx; simp at hx
      | some t => rw [h] at hx; exact List.mem_flatMap.2 ⟨t, by simp, hx⟩
    · simp at hx

/-- A run with bad references. -/
theorem simple_badRef (R : Rnd) (S : StdSort) (rng : Rng G') (qf : Bool) (w : World) (o : ToolOptions)
    (hV : (vocabulary w o).dedup.length ≤ 2 ^ 31)
    (hbad : o.refFilename = [] ∨ w.file o.refFilename = none ∨
      ∃ t, w.file o.refFilename = some t ∧ ¬ ValidFile StrEventText t) :
    mainWith R S rng (simpleKit R qf) w o = .ok .failed := by
  unfold mainWith
  by_cases hr : o.refFilename = []
  · rw [if_pos hr]
  · rw [if_neg hr]
    rcases hbad with hbad | hbad | ⟨t, ht, hbad⟩
    · exact absurd hbad hr
    · rw [hbad]
    · rw [ht]
      obtain ⟨k, hk⟩ := (Format.strRefs (R := R)).readPlain_bad t hbad
      set es := (readPlain extractStrEvent t).1 with hes
      obtain ⟨m', e1, _⟩ := IntMapper.mapEach_ids qf (2 ^ 31 - 1) (es.flatMap (strings qf)) (by
          rw [kMax31]
          refine (firsts_length_subset _ _ ?_).trans hV
          intro s hs
          obtain ⟨e, he, hs⟩ := List.mem_flatMap.1 hs
          have := ref_strings t e he
          rcases (strings_mem qf e s).1 hs with rfl | rfl
          · exact vocabulary_ref ht this.1
          · exact vocabulary_ref ht this.2) es IntMapper.new [] [] (by simp) (IntMapper.after_new _)
      have e : ∃ es', (simpleKit R qf).readRef (simpleKit R qf).mapper t = (m', es', .badLine k) := by
        have := C48_mapped extractStrEvent (IntMapper.mapEvent qf (2 ^ 31 - 1)) IntMapper.new t
        simp only [← hes, e1, hk] at this
        exact ⟨_, this⟩
      obtain ⟨es', e⟩ := e
      simp only [e]

/-- A run with good references: the state after reading them. -/
theorem simple_readRef (R : Rnd) (qf : Bool) (T rest : List Str) (t : Str)
    (hv : ValidFile StrEventText t)
    (hT : T = (eventsIn extractStrEvent t).flatMap (strings qf) ++ rest)
    (hcap : (firsts T).length ≤ 2 ^ 31) :
    ∃ m, (simpleKit R qf).readRef (simpleKit R qf).mapper t =
        (m, (eventsIn extractStrEvent t).map (Event.rename (idOf T) (idOf T)), .ok) ∧
      m.After (IntMapper.kMaxSize (2 ^ 31 - 1))
        ((eventsIn extractStrEvent t).flatMap (strings qf)) := by
  have e0 := (Format.strRefs (R := R)).readPlain_ok t hv
  obtain ⟨m', e1, a1⟩ := IntMapper.mapEach_ids qf (2 ^ 31 - 1) T (by rw [kMax31]; exact hcap)
    (eventsIn extractStrEvent t) IntMapper.new [] rest (by simpa using hT) (IntMapper.after_new _)
  refine ⟨m', ?_, by simpa using a1⟩
  have := C48_mapped extractStrEvent (IntMapper.mapEvent qf (2 ^ 31 - 1)) IntMapper.new t
  rw [e0] at this
  simp only [show (lines t).filterMap (lineEvent extractStrEvent) = eventsIn extractStrEvent t from rfl,
    e1] at this
  exact this

/-- A run with bad hypotheses. -/
theorem simple_badHyp (R : Rnd) (S : StdSort) (rng : Rng G') (qf : Bool) (w : World) (o : ToolOptions)
    (hV : (vocabulary w o).dedup.length ≤ 2 ^ 31) (hbad : hypText w o = none ∨
      ∃ t, hypText w o = some t ∧ ¬ ValidFile (ScoredText R StrEventText) t) :
    mainWith R S rng (simpleKit R qf) w o = .ok .failed := by
  by_cases hb : o.refFilename = [] ∨ w.file o.refFilename = none ∨
      ∃ t, w.file o.refFilename = some t ∧ ¬ ValidFile StrEventText t
  · exact simple_badRef R S rng qf w o hV hb
  · push Not at hb
    obtain ⟨b1, b2, b3⟩ := hb
    obtain ⟨t, ht⟩ := Option.ne_none_iff_exists'.1 b2
    have hv := b3 t ht
    have hrefs : (eventsIn extractStrEvent t).flatMap (strings qf) ⊆ vocabulary w o := by
      intro s hs
      obtain ⟨e, he, hs⟩ := List.mem_flatMap.1 hs
      have := ref_strings t e (by rw [(Format.strRefs (R := R)).readPlain_ok t hv]; exact he)
      rcases (strings_mem qf e s).1 hs with rfl | rfl
      · exact vocabulary_ref ht this.1
      · exact vocabulary_ref ht this.2
    unfold hypText at hbad
    unfold mainWith
    rw [if_neg b1, ht]
    rcases hbad with hbad | ⟨t', ht', hbad⟩
    · obtain ⟨m, e1, _⟩ := simple_readRef R qf _ [] t hv (by rw [List.append_nil])
        ((firsts_length_subset _ _ hrefs).trans hV)
      simp only [e1, hbad]
    · set es := (readPlain (extractScored R extractStrEvent) t').1 with hes
      have hall : (eventsIn extractStrEvent t).flatMap (strings qf) ++
          es.flatMap (fun e => strings qf e.base) ⊆ vocabulary w o := by
        intro s hs
        rcases List.mem_append.1 hs with hs | hs
        · exact hrefs hs
        · obtain ⟨e, he, hs⟩ := List.mem_flatMap.1 hs
          have := hyp_strings R t' e he
          rcases (strings_mem qf e.base s).1 hs with rfl | rfl
          · exact vocabulary_hyp ht' this.1
          · exact vocabulary_hyp ht' this.2
      have hcap := (firsts_length_subset _ _ hall).trans hV
      obtain ⟨m, e1, a1⟩ := simple_readRef R qf _ (es.flatMap (fun e => strings qf e.base)) t hv rfl hcap
      obtain ⟨k, hk⟩ := (Format.strHyps (R := R)).readPlain_bad t' hbad
      obtain ⟨m', e2, _⟩ := IntMapper.mapEachScored_ids qf (2 ^ 31 - 1) _ (by rw [kMax31]; exact hcap) es
        m _ [] (by rw [List.append_nil]) a1
      have e : ∃ es', (simpleKit R qf).readHyp m t' = (m', es', .badLine k) := by
        have := C48_mapped (extractScored R extractStrEvent)
          (IntMapper.mapScoredEvent qf (2 ^ 31 - 1)) m t'
        simp only [← hes, e2, hk] at this
        exact ⟨_, this⟩
      obtain ⟨es', e⟩ := e
      simp only [e1, ht', e]

/-- What a run reads from good files: renamed events, and the renamed map of the queries. -/
theorem simple_ids (R : Rnd) (qf : Bool) (w : World) (o : ToolOptions)
    (hV : (vocabulary w o).dedup.length ≤ 2 ^ 31) (t t' : Str)
    (ht : w.file o.refFilename = some t) (ht' : hypText w o = some t') (hv : ValidFile StrEventText t)
    (hv' : ValidFile (ScoredText R StrEventText) t') :
    ∃ (f : Str → Nat) (N : Nat) (m m' : IntMapper), Function.Injective f ∧
      (∀ s n, f s ≠ N + (2 * n + 1)) ∧
      (simpleKit R qf).readRef (simpleKit R qf).mapper t =
        (m, (eventsIn extractStrEvent t).map (Event.rename f f), .ok) ∧
      (simpleKit R qf).readHyp m t' =
        (m', (eventsIn (extractScored R extractStrEvent) t').map (ScoredEvent.rename f f), .ok) ∧
      ((∃ q2g, readQueryMap (fun (m : Unit) q => (m, .ok q)) w o () = .ok (some q2g) ∧
        readQueryMap (simpleKit R qf).mapQuery w o m' = .ok (some (q2g.map (Prod.map f f)))) ∨
      (readQueryMap (fun (m : Unit) q => (m, .ok q)) w o () = .ok none ∧
        readQueryMap (simpleKit R qf).mapQuery w o m' = .ok none)) := by
  set refs := eventsIn extractStrEvent t with hrefs
  set hyps := eventsIn (extractScored R extractStrEvent) t' with hhyps
  set A := refs.flatMap (strings qf) with hA
  set B := hyps.flatMap (fun e => strings qf e.base) with hB
  set T := A ++ B ++ queryWords w o with hT
  have hsub : T ⊆ vocabulary w o := by
    intro s hs
    rcases List.mem_append.1 hs with hs | hs
    · rcases List.mem_append.1 hs with hs | hs
      · obtain ⟨e, he, hs⟩ := List.mem_flatMap.1 hs
        have := ref_strings t e (by rw [(Format.strRefs (R := R)).readPlain_ok t hv]; exact he)
        rcases (strings_mem qf e s).1 hs with rfl | rfl
        · exact vocabulary_ref ht this.1
        · exact vocabulary_ref ht this.2
      · obtain ⟨e, he, hs⟩ := List.mem_flatMap.1 hs
        have := hyp_strings R t' e (by rw [(Format.strHyps (R := R)).readPlain_ok t' hv']; exact he)
        rcases (strings_mem qf e.base s).1 hs with rfl | rfl
        · exact vocabulary_hyp ht' this.1
        · exact vocabulary_hyp ht' this.2
    · exact vocabulary_query w o hs
  have hcap := (firsts_length_subset _ _ hsub).trans hV
  obtain ⟨f, N, hf, hfT, hN⟩ := extend_ids T
  obtain ⟨m, e1, a1⟩ := simple_readRef R qf T (B ++ queryWords w o) t hv
    (by rw [hT, List.append_assoc]) hcap
  obtain ⟨m', e2, a2⟩ := IntMapper.mapEachScored_ids qf (2 ^ 31 - 1) T (by rw [kMax31]; exact hcap) hyps
    m A (queryWords w o) rfl a1
  have e3 : (simpleKit R qf).readHyp m t' =
      (m', hyps.map (ScoredEvent.rename (idOf T) (idOf T)), .ok) := by
    have := C48_mapped (extractScored R extractStrEvent) (IntMapper.mapScoredEvent qf (2 ^ 31 - 1)) m t'
    rw [(Format.strHyps (R := R)).readPlain_ok t' hv'] at this
    simp only [show (lines t').filterMap (lineEvent (extractScored R extractStrEvent)) = hyps from rfl,
      e2] at this
    exact this
  have hren : refs.map (Event.rename (idOf T) (idOf T)) = refs.map (Event.rename f f) := by
    refine List.map_congr_left (fun e he => ?_)
    have hm : ∀ s ∈ strings qf e, s ∈ T := fun s hs => by
      rw [hT]
      exact List.mem_append_left _ (List.mem_append_left _ (List.mem_flatMap.2 ⟨e, he, hs⟩))
    unfold Event.rename
    rw [hfT e.query (hm _ (by simp [strings_mem])), hfT e.location (hm _ (by simp [strings_mem]))]
  have hren' : hyps.map (ScoredEvent.rename (idOf T) (idOf T)) = hyps.map (ScoredEvent.rename f f) := by
    refine List.map_congr_left (fun e he => ?_)
    have hm : ∀ s ∈ strings qf e.base, s ∈ T := fun s hs => by
      rw [hT]
      exact List.mem_append_left _ (List.mem_append_right _ (List.mem_flatMap.2 ⟨e, he, hs⟩))
    unfold ScoredEvent.rename Event.rename
    rw [hfT e.base.query (hm _ (by simp [strings_mem])),
      hfT e.base.location (hm _ (by simp [strings_mem]))]
  have hNames := IntMapper.names_ids (2 ^ 31 - 1) T (A ++ B) (queryWords w o) rfl
    (by rw [kMax31]; exact hcap)
  rw [hren] at e1
  rw [hren'] at e3
  exact ⟨f, N, m, m', hf, hN, e1, e3, readQueryMap_names hf w o hNames m' (by simpa using a2)
    (fun s hs => hfT s (by rw [hT]; exact List.mem_append_right _ hs))⟩

/-- A run with good event files: the evaluation of renamed events. -/
theorem simple_good (R : Rnd) (S : StdSort) (rng : Rng G') (qf : Bool) (w : World) (o : ToolOptions)
    (hV : (vocabulary w o).dedup.length ≤ 2 ^ 31) (hr : o.refFilename ≠ []) (t t' : Str)
    (ht : w.file o.refFilename = some t) (ht' : hypText w o = some t') (hv : ValidFile StrEventText t)
    (hv' : ValidFile (ScoredText R StrEventText) t') :
    ∃ (f : Str → Nat) (N : Nat), Function.Injective f ∧ (∀ s n, f s ≠ N + (2 * n + 1)) ∧
      mainWith R S rng (simpleKit R qf) w o =
        (readQueryMap (fun (m : Unit) q => (m, .ok q)) w o ()).bind fun
          | none => .ok .failed
          | some q2g => evaluate R S rng (simpleKit R qf) w o (q2g.map (Prod.map f f))
              ((eventsIn extractStrEvent t).map (Event.rename f f))
              ((eventsIn (extractScored R extractStrEvent) t').map (ScoredEvent.rename f f)) := by
  obtain ⟨f, N, m, m', hf, hN, e1, e3, hq⟩ := simple_ids R qf w o hV t t' ht ht' hv hv'
  refine ⟨f, N, hf, hN, ?_⟩
  rw [mainWith_inputs R S rng (simpleKit R qf) w o t t' m m' _ _ hr ht ht' e1 e3]
  rcases hq with ⟨q2g, h1, h2⟩ | ⟨h1, h2⟩
  · rw [h1, h2]
    rfl
  · rw [h1, h2]
    rfl

end

/-! ## Pairs of runs -/

/-- After its event files have been read, the run evaluates the events renamed by `f`. -/
def RunsRenamed {μ Q G : Type} [DecidableEq Q] [Cmp Q] (R : Rnd) (S : StdSort) (rng : Rng G)
    (kit : ToolKit μ (EventSet (Event Q Q)) Q Q) (w : World) (o : ToolOptions) (f : Str → Q)
    (t t' : Str) : Prop :=
  mainWith R S rng kit w o =
    (readQueryMap (fun (m : Unit) q => (m, .ok q)) w o ()).bind fun
      | none => .ok .failed
      | some q2g => evaluate R S rng kit w o (q2g.map (Prod.map f f))
          ((eventsIn extractStrEvent t).map (Event.rename f f))
          ((eventsIn (extractScored R extractStrEvent) t').map (ScoredEvent.rename f f))

theorem rename_id (e : Event Str Str) : e.rename id id = e := rfl

theorem str_good {G : Type} (R : Rnd) (S : StdSort) (rng : Rng G) (w : World) (o : ToolOptions)
    (hr : o.refFilename ≠ []) (t t' : Str) (ht : w.file o.refFilename = some t)
    (ht' : hypText w o = some t') (hv : ValidFile StrEventText t)
    (hv' : ValidFile (ScoredText R StrEventText) t') :
    RunsRenamed R S rng (strKit R) w o id t t' := by
  have e1 : (eventsIn extractStrEvent t).map (Event.rename id id) = eventsIn extractStrEvent t :=
    List.map_id _
  have e2 : (eventsIn (extractScored R extractStrEvent) t').map (ScoredEvent.rename id id) =
      eventsIn (extractScored R extractStrEvent) t' := List.map_id _
  have e3 : ∀ q2g : List (Str × Str), q2g.map (Prod.map id id) = q2g := fun q => by simp
  unfold RunsRenamed
  rw [(str_plain R).main_good S rng w o hr t t' ht ht' hv hv', e1, e2]
  simp only [e3]
  rfl

section
variable {μ μ' Q Q' G : Type} [DecidableEq Q] [Cmp Q] [LawfulCmp Q] [DecidableEq Q'] [Cmp Q']
  [LawfulCmp Q']

/-- Two runs on files with the same lines in another order, with two ways of naming strings. -/
theorem main_agree (R : Rnd) (S S' : StdSort) (rng rng' : Rng G)
    {kit : ToolKit μ (EventSet (Event Q Q)) Q Q} {kit' : ToolKit μ' (EventSet (Event Q' Q')) Q' Q'}
    (hk : SegKit kit) (hk' : SegKit kit') (w w' : World) (o : ToolOptions) (hw : Reordered o w w')
    {f : Str → Q} {f' : Str → Q'} (g : Q → Q') (hg : Function.Injective g) (hgf : ∀ s, g (f s) = f' s)
    (t t' u u' : Str) (ht : w.file o.refFilename = some t) (ht' : hypText w o = some t')
    (hu : w'.file o.refFilename = some u) (hu' : hypText w' o = some u')
    (hv' : ValidFile (ScoredText R StrEventText) t') (n n' : Nat)
    (hn : (lines t).length + (lines t').length ≤ n) (hn' : (lines u).length + (lines u').length ≤ n')
    (hA : Assessable R w o n) (hA' : Assessable R w' o n')
    (hR : R = Rnd.exact ∨ R.Faithful ∧ n ≤ 2 ^ 24 ∧ n' ≤ 2 ^ 24)
    (hd : o.sort = "desc".toList) (hc : o.collapse = true)
    (hrun : RunsRenamed R S rng kit w o f t t') (hrun' : RunsRenamed R S' rng' kit' w' o f' u u') :
    EndAlike R (mainWith R S rng kit w o) (mainWith R S' rng' kit' w' o) := by
  unfold RunsRenamed at hrun hrun'
  rw [hrun, hrun', readQueryMap_world _ w w' o () hw.querySet hw.queryGroups]
  have hl : ∀ x, x ∈ lines t ↔ x ∈ lines u := by
    rcases hw.refs with ⟨h, _⟩ | ⟨a, b, ha, hb, h⟩
    · rw [ht] at h; cases h
    · rw [ht] at ha; rw [hu] at hb
      injection ha with ha; injection hb with hb
      subst ha; subst hb
      exact h
  have hp : (lines t').Perm (lines u') := by
    rcases hw.hyps with ⟨h, _⟩ | ⟨a, b, ha, hb, h⟩
    · rw [ht'] at h; cases h
    · rw [ht'] at ha; rw [hu'] at hb
      injection ha with ha; injection hb with hb
      subst ha; subst hb
      exact h
  have hrefs : ∀ e, e ∈ eventsIn extractStrEvent t ↔ e ∈ eventsIn extractStrEvent u := by
    intro e
    unfold eventsIn
    simp only [List.mem_filterMap, hl]
  have hhyps : (eventsIn (extractScored R extractStrEvent) t').Perm
      (eventsIn (extractScored R extractStrEvent) u') := hp.filterMap _
  have hfin := (str_plain R).finite t' hv'
  have len1 : (eventsIn extractStrEvent t).length + (eventsIn (extractScored R extractStrEvent) t').length
      ≤ n := (Nat.add_le_add (List.length_filterMap_le _ _) (List.length_filterMap_le _ _)).trans hn
  have len2 : (eventsIn extractStrEvent u).length + (eventsIn (extractScored R extractStrEvent) u').length
      ≤ n' := (Nat.add_le_add (List.length_filterMap_le _ _) (List.length_filterMap_le _ _)).trans hn'
  set refs := eventsIn extractStrEvent t
  set hyps := eventsIn (extractScored R extractStrEvent) t'
  set refs' := eventsIn extractStrEvent u
  set hyps' := eventsIn (extractScored R extractStrEvent) u'
  have hnan : ∀ h ∈ hyps.map (ScoredEvent.rename f f), h.score ≠ .nan := by
    intro x hx
    obtain ⟨y, hy, rfl⟩ := List.mem_map.1 hx
    exact hfin y hy
  have hnan' : ∀ h ∈ hyps'.map (ScoredEvent.rename f' f'), h.score ≠ .nan := by
    intro x hx
    obtain ⟨y, hy, rfl⟩ := List.mem_map.1 hx
    exact hfin y (hhyps.mem_iff.2 hy)
  have hgf' : g ∘ f = f' := funext hgf
  have ren1 : ∀ e : Event Str Str, (e.rename f f).rename g g = e.rename f' f' := fun e => by
    unfold Event.rename; simp only [hgf]
  have ren2 : ∀ e : ScoredEvent Str Str, (e.rename f f).rename g g = e.rename f' f' := fun e => by
    unfold ScoredEvent.rename Event.rename; simp only [hgf]
  obtain ⟨p1, p2⟩ := readQueryMap_plain (mapQuery := fun (m : Unit) q => (m, (.ok q : Cpp Str)))
    (fun _ _ => rfl) w' o ()
  cases hq : readQueryMap (fun (m : Unit) q => (m, (.ok q : Cpp Str))) w' o () with
  | error e =>
    exfalso
    rw [hq] at p1 p2
    by_cases hok : (o.querySet ≠ [] → o.queryGroups = [] → ∃ t, w'.file o.querySet = some t) ∧
        (o.queryGroups ≠ [] → ∃ t, w'.file o.queryGroups = some t ∧
          WellFormedGroups ((lines t).map words))
    · obtain ⟨_, h⟩ := p1 hok; cases h
    · cases p2 hok
  | ok x =>
    cases x with
    | none => exact Or.inl ⟨rfl, rfl⟩
    | some q2g =>
      have eq : (q2g.map (Prod.map f f)).map (Prod.map g g) = q2g.map (Prod.map f' f') := by
        rw [List.map_map, Prod.map_comp_map, hgf']
      obtain ⟨v1, v2⟩ := hk.safe.evaluate_total R S rng w o (q2g.map (Prod.map f f))
        (refs.map (Event.rename f f)) _ n hA hnan (by simpa using len1)
      obtain ⟨v1', v2'⟩ := hk'.safe.evaluate_total R S' rng' w' o (q2g.map (Prod.map f' f'))
        (refs'.map (Event.rename f' f')) _ n' hA' hnan' (by simpa using len2)
      by_cases hdump : o.dumpMatches = [] ∨ w.writable o.dumpMatches = true
      · obtain ⟨r, er, _⟩ := v2 hdump
        obtain ⟨r', er', _⟩ := v2' (by rw [← hw.writable]; exact hdump)
        refine Or.inr ⟨r, r', er, er', ?_⟩
        refine evaluate_agree R S S' rng rng' kit kit' hk hk' w w' o hg hg (q2g.map (Prod.map f f))
          (refs.map (Event.rename f f)) (refs'.map (Event.rename f' f')) _ _ ?_ ?_ hnan ?_ hd hc
          hw.writable r r' er (by rw [eq]; exact er')
        · intro e
          simp only [List.map_map, List.mem_map, Function.comp, ren1, hrefs]
        · rw [List.map_map]
          have : ScoredEvent.rename g g ∘ ScoredEvent.rename f f = ScoredEvent.rename f' f' :=
            funext ren2
          rw [this]
          exact hhyps.symm.map _
        · rcases hR with hR | ⟨h1, h2, h3⟩
          · exact Or.inl hR
          · refine Or.inr ⟨h1, ?_, ?_⟩
            · simpa using len1.trans h2
            · simpa using len2.trans h3
      · push Not at hdump
        have hdump : o.dumpMatches ≠ [] ∧ w.writable o.dumpMatches = false :=
          ⟨hdump.1, by simpa using hdump.2⟩
        exact Or.inl ⟨v1 hdump, v1' (by rw [← hw.writable]; exact hdump)⟩

end

end Kws

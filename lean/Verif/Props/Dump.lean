import Verif.Lemmas.Dump
import Verif.Props.Output

/-!
# C77: the file with the matches
-/

namespace Kws
open Spec Traced

theorem showNat_denotes (n : ℕ) : Denotes (showNat n) n :=
  ⟨[], false, showNat n, rfl, Sign.none, showNat_numeral n, by rw [showNat_value]; rfl⟩

theorem showBoxEvent_line (e : Event Str (DocBox Str UInt32)) : BoxEventLine e (showBoxEvent e) :=
  ⟨_, _, _, _, showNat_denotes _, showNat_denotes _, showNat_denotes _, showNat_denotes _, by
    simp [showBoxEvent, showDocBox, showBox]⟩

theorem showIdEvent_line (e : Event Nat Nat) : IdEventLine e (showIdEvent e) :=
  ⟨_, _, showNat_denotes _, showNat_denotes _, by simp [showIdEvent]⟩

theorem showFlt_prints (s : Flt) : PrintsScore s (showFlt showGeneral s) := by
  cases s with
  | fin x => exact C74_general x
  | _ => rfl

section
variable {Q L : Type}

theorem showMatch_line {ev : Event Q L → Str → Prop} {sh : Event Q L → Str} (h : ∀ e, ev e (sh e))
    (m : KwsMatch Q L) : MatchLine ev m (showMatch sh m) := by
  obtain ⟨ref, hyp, err⟩ := m
  refine ⟨match hyp with
      | none => []
      | some h => "Hyp=".toList ++ showScored sh h ++ ", ".toList,
    match ref with
      | none => []
      | some r => "Ref=".toList ++ sh r ++ ", ".toList,
    _, _, _, _, ?_, ?_, C74_general _, C74_general _, showNat_denotes _, showNat_denotes _, ?_⟩
  · cases hyp with
    | none => rfl
    | some x => exact ⟨_, _, h _, showFlt_prints _, by simp [showScored]⟩
  · cases ref with
    | none => rfl
    | some x => exact ⟨_, h _, rfl⟩
  · have c1 : "Error=MatchError[fp=".toList = "Error=".toList ++ "MatchError[fp=".toList := by decide
    have c5 : "]]".toList = "]".toList ++ "]".toList := by decide
    unfold showMatch showError
    rw [c1, c5]
    cases hyp <;> cases ref <;> simp only [List.append_assoc, List.nil_append]

theorem forall₂_map {α β : Type} {P : α → β → Prop} (f : α → β) (h : ∀ a, P a (f a)) (l : List α) :
    List.Forall₂ P l (l.map f) := by
  induction l with
  | nil => exact .nil
  | cons a l ih => exact .cons (h a) ih

theorem dumpLines {ev : Event Q L → Str → Prop} {sh : Event Q L → Str} (h : ∀ e, ev e (sh e))
    {valid : Event Q L → Prop} {k : ℕ} {ws : Event Q L → List Str} (hw : EventWords sh valid k ws)
    {ms rep : List (KwsMatch Q L)} (hm : ∀ m ∈ ms, ValidMatch valid m)
    (hr : ∀ m ∈ rep, ValidMatch valid m) : DumpLines ev ms rep (lines (showDump sh (ms, rep))) := by
  rw [lines_dump hw hm hr]
  refine ⟨_, rep.map (showMatch sh), by rw [List.map_map]; rfl, forall₂_map _ (showMatch_line h) _,
    forall₂_map _ (showMatch_line h) _⟩

end

/-- The names in the events of a match are words. -/
def Spec.NamesOk (m : KwsMatch Str (DocBox Str UInt32)) : Prop :=
  (∀ h, m.hyp = some h → Word h.base.query ∧ Word h.base.location.document) ∧
    ∀ r, m.ref = some r → Word r.query ∧ Word r.location.document

/-- C77: the file with the matches of the box tool has one line for every match, a line in between, and
one line for every repeated match. -/
theorem C77_lines_box (ms rep : List (KwsMatch Str (DocBox Str UInt32)))
    (h : ∀ m ∈ ms ++ rep, NamesOk m) :
    DumpLines BoxEventLine ms rep (lines (showDump icdarTexts.showEvent (ms, rep))) :=
  dumpLines showBoxEvent_line box_eventWords (fun m hm => h m (by simp [hm]))
    fun m hm => h m (by simp [hm])

/-- C77: the same for the segmentation tool. -/
theorem C77_lines_ids (ms rep : List (KwsMatch Nat Nat)) :
    DumpLines IdEventLine ms rep (lines (showDump simpleTexts.showEvent (ms, rep))) :=
  dumpLines showIdEvent_line id_eventWords (fun _ _ => ⟨fun _ _ => trivial, fun _ _ => trivial⟩)
    fun _ _ => ⟨fun _ _ => trivial, fun _ _ => trivial⟩

/-! ## What the file determines -/

section
variable {Q L : Type}

theorem split_at {α : Type} {H : α} {a a' b b' : List α} (h1 : H ∉ a) (h2 : H ∉ a')
    (h : a ++ H :: b = a' ++ H :: b') : a = a' ∧ b = b' := by
  induction a generalizing a' with
  | nil =>
    cases a' with
    | nil => simpa using h
    | cons x a' =>
      simp only [List.nil_append, List.cons_append, List.cons.injEq] at h
      exact absurd (by simp [h.1]) h2
  | cons x a ih =>
    cases a' with
    | nil =>
      simp only [List.nil_append, List.cons_append, List.cons.injEq] at h
      exact absurd (by simp [h.1]) h1
    | cons y a' =>
      simp only [List.cons_append, List.cons.injEq] at h
      obtain ⟨e, e'⟩ := ih (fun hm => h1 (by simp [hm])) (fun hm => h2 (by simp [hm])) h.2
      exact ⟨by rw [h.1, e], e'⟩

theorem showMatch_head (sh : Event Q L → Str) (m : KwsMatch Q L) :
    (showMatch sh m).head? = some 'M' := by
  unfold showMatch
  simp only [List.append_assoc]
  rfl

theorem header_no_match (sh : Event Q L → Str) (ms : List (KwsMatch Q L)) :
    "#### REPEATED MATCHES ####".toList ∉ ms.map (showMatch sh) := by
  intro hm
  obtain ⟨m, _, e⟩ := List.mem_map.1 hm
  have := showMatch_head sh m
  rw [e] at this
  exact absurd this (by decide)

theorem forall₂_of_map {α β : Type} {P : α → α → Prop} {f : α → β} {l l' : List α}
    (h : l.map f = l'.map f) (hp : ∀ a ∈ l, ∀ b ∈ l', f a = f b → P a b) : List.Forall₂ P l l' := by
  induction l generalizing l' with
  | nil =>
    cases l' with
    | nil => exact .nil
    | cons _ _ => cases h
  | cons a l ih =>
    cases l' with
    | nil => cases h
    | cons b l' =>
      simp only [List.map_cons, List.cons.injEq] at h
      exact .cons (hp a (by simp) b (by simp) h.1)
        (ih h.2 fun x hx y hy => hp x (by simp [hx]) y (by simp [hy]))

theorem dump_inj {sh : Event Q L → Str} {valid : Event Q L → Prop} {k : ℕ}
    {ws : Event Q L → List Str} (hw : EventWords sh valid k ws)
    {ms rep ms' rep' : List (KwsMatch Q L)} (hm : ∀ m ∈ ms, ValidMatch valid m)
    (hr : ∀ m ∈ rep, ValidMatch valid m) (hm' : ∀ m ∈ ms', ValidMatch valid m)
    (hr' : ∀ m ∈ rep', ValidMatch valid m)
    (h : showDump sh (ms, rep) = showDump sh (ms', rep')) :
    List.Forall₂ SameLook ms ms' ∧ List.Forall₂ SameLook rep rep' := by
  have hl := congrArg lines h
  rw [lines_dump hw hm hr, lines_dump hw hm' hr'] at hl
  obtain ⟨e1, e2⟩ := split_at (header_no_match sh ms) (header_no_match sh ms') hl
  refine ⟨forall₂_of_map e1 fun a ha b hb hab => showMatch_inj hw (hm a ha) (hm' b hb) hab,
    forall₂_of_map e2 fun a ha b hb hab => showMatch_inj hw (hr a ha) (hr' b hb) ?_⟩
  exact List.append_cancel_left hab

/-- A number that is 0 or 1. -/
theorem general_bit {x y : ℚ} (hx : x = 0 ∨ x = 1) (hy : y = 0 ∨ y = 1)
    (h : showGeneral x = showGeneral y) : x = y := by
  have h01 : showGeneral (0 : ℚ) ≠ showGeneral (1 : ℚ) := by decide +kernel
  rcases hx with rfl | rfl <;> rcases hy with rfl | rfl <;> first | rfl | exact absurd h h01 |
    exact absurd h.symm h01

/-- A match with errors 0 or 1 and a score of six digits. -/
def Spec.Shown (m : KwsMatch Q L) : Prop :=
  (∀ h, m.hyp = some h → SixDigits h.score) ∧ (m.error.fp = 0 ∨ m.error.fp = 1) ∧
    (m.error.fn = 0 ∨ m.error.fn = 1)

theorem six_inj {s s' : Flt} (h : SixDigits s) (h' : SixDigits s')
    (he : showFlt showGeneral s = showFlt showGeneral s') : s = s' := by
  obtain ⟨d, a1, a2, _, rfl⟩ := h
  obtain ⟨d', b1, b2, _, rfl⟩ := h'
  have p := C74_general (Rnd.ieee.f32 d)
  have p' := C74_general (Rnd.ieee.f32 d')
  rw [showFlt_fin, showFlt_fin] at he
  obtain ⟨q, hq, hn⟩ := p
  rw [← C75_digits d q a1 a2 _ ⟨q, hq, hn⟩ hq]
  rw [he] at hq
  rw [← C75_digits d' q b1 b2 _ p' hq]

theorem SameLook.eq {m m' : KwsMatch Q L} (h : SameLook m m') (hs : Shown m) (hs' : Shown m') :
    m = m' := by
  obtain ⟨ref, hyp, fp, fn⟩ := m
  obtain ⟨ref', hyp', fp', fn'⟩ := m'
  obtain ⟨a1, a2, a3⟩ := hs
  obtain ⟨b1, b2, b3⟩ := hs'
  have h1 := h.ref
  have h2 := h.base
  have h3 := h.score
  have h4 := general_bit a2 b2 h.fp
  have h5 := general_bit a3 b3 h.fn
  dsimp only at *
  subst h1 h4 h5
  congr 1
  cases hyp with
  | none =>
    cases hyp' with
    | none => rfl
    | some _ => cases h2
  | some x =>
    cases hyp' with
    | none => cases h2
    | some y =>
      obtain ⟨xb, xs⟩ := x
      obtain ⟨yb, ys⟩ := y
      simp only [Option.map_some, Option.some.injEq] at h2 h3
      have h6 : xs = ys := six_inj (a1 _ rfl) (b1 _ rfl) h3
      rw [h2, h6]

theorem forall₂_eq {l l' : List (KwsMatch Q L)} (h : List.Forall₂ SameLook l l')
    (hs : ∀ m ∈ l, Shown m) (hs' : ∀ m ∈ l', Shown m) : l = l' := by
  induction h with
  | nil => rfl
  | cons h _ ih =>
    rw [h.eq (hs _ (by simp)) (hs' _ (by simp)),
      ih (fun m hm => hs m (by simp [hm])) fun m hm => hs' m (by simp [hm])]

end

/-- C77: two files of the box tool are only equal if they have the same matches in the same order, up to
scores and errors that print the same. -/
theorem C77_unambiguous (ms rep ms' rep' : List (KwsMatch Str (DocBox Str UInt32)))
    (h : ∀ m ∈ ms ++ rep, NamesOk m) (h' : ∀ m ∈ ms' ++ rep', NamesOk m)
    (he : showDump icdarTexts.showEvent (ms, rep) = showDump icdarTexts.showEvent (ms', rep')) :
    List.Forall₂ SameLook ms ms' ∧ List.Forall₂ SameLook rep rep' :=
  dump_inj box_eventWords (fun m hm => h m (by simp [hm])) (fun m hm => h m (by simp [hm]))
    (fun m hm => h' m (by simp [hm])) (fun m hm => h' m (by simp [hm])) he

/-- C77: with scores of at most six digits and errors 0 and 1, the file determines the matches. -/
theorem C77_determined (ms rep ms' rep' : List (KwsMatch Str (DocBox Str UInt32)))
    (h : ∀ m ∈ ms ++ rep, NamesOk m ∧ Shown m) (h' : ∀ m ∈ ms' ++ rep', NamesOk m ∧ Shown m)
    (he : showDump icdarTexts.showEvent (ms, rep) = showDump icdarTexts.showEvent (ms', rep')) :
    ms = ms' ∧ rep = rep' := by
  obtain ⟨h1, h2⟩ := C77_unambiguous ms rep ms' rep' (fun m hm => (h m hm).1)
    (fun m hm => (h' m hm).1) he
  exact ⟨forall₂_eq h1 (fun m hm => (h m (by simp [hm])).2) fun m hm => (h' m (by simp [hm])).2,
    forall₂_eq h2 (fun m hm => (h m (by simp [hm])).2) fun m hm => (h' m (by simp [hm])).2⟩

/-- C77 for the segmentation tool: the file determines the matches of integers. -/
theorem C77_determined_ids (ms rep ms' rep' : List (KwsMatch Nat Nat))
    (h : ∀ m ∈ ms ++ rep, Shown m) (h' : ∀ m ∈ ms' ++ rep', Shown m)
    (he : showDump simpleTexts.showEvent (ms, rep) = showDump simpleTexts.showEvent (ms', rep')) :
    ms = ms' ∧ rep = rep' := by
  have hv : ∀ m : KwsMatch Nat Nat, ValidMatch (fun _ => True) m :=
    fun _ => ⟨fun _ _ => trivial, fun _ _ => trivial⟩
  obtain ⟨h1, h2⟩ := dump_inj id_eventWords (fun m _ => hv m) (fun m _ => hv m) (fun m _ => hv m)
    (fun m _ => hv m) he
  exact ⟨forall₂_eq h1 (fun m hm => h m (by simp [hm])) fun m hm => h' m (by simp [hm]),
    forall₂_eq h2 (fun m hm => h m (by simp [hm])) fun m hm => h' m (by simp [hm])⟩

/-- A file with a hit, a false negative and a repeated match. -/
example :
    let r : Event Str (DocBox Str UInt32) := ⟨['q'], ⟨⟨1, 2, 3, 4⟩, ['d']⟩⟩
    let r' : Event Str (DocBox Str UInt32) := ⟨['p'], ⟨⟨1, 2, 3, 4⟩, ['d']⟩⟩
    showDump icdarTexts.showEvent
      ([⟨some r, some ⟨r, .fin (1 / 2)⟩, ⟨0, 0⟩⟩, ⟨some r', none, ⟨0, 1⟩⟩],
        [⟨some r, some ⟨r, .fin (1 / 4)⟩, ⟨0, 0⟩⟩]) =
      ("Match[Hyp=q d 1 2 3 4 0.5, Ref=q d 1 2 3 4, Error=MatchError[fp=0, fn=0, nh=1, nr=1]]\n" ++
        "Match[Ref=p d 1 2 3 4, Error=MatchError[fp=0, fn=1, nh=0, nr=1]]\n" ++
        "#### REPEATED MATCHES ####\n" ++
        "## Match[Hyp=q d 1 2 3 4 0.25, Ref=q d 1 2 3 4, Error=MatchError[fp=0, fn=0, nh=1, nr=1]]\n"
        ).toList := by
  decide +kernel

/-! ## The file of a run -/

theorem yields_all {E : Type} {G : Str → E → Str → Prop} {P : E → Prop}
    (hG : ∀ l e r, G l e r → P e) {ls : List Str} {es : List E} (h : Yields G ls es) :
    ∀ e ∈ es, P e := by
  induction h with
  | nil => simp
  | skip _ _ ih => exact ih
  | event _ he _ ih =>
    obtain ⟨r, hr, _⟩ := he
    intro e hm
    rcases List.mem_cons.1 hm with rfl | hm
    · exact hG _ _ _ hr
    · exact ih e hm

theorem box_names {r r' : Str} {e : Event Str (DocBox Str UInt32)} (h : BoxEventText r e r') :
    Word e.query ∧ Word e.location.document := by
  obtain ⟨_, _, ⟨_, _, _, h1, _⟩, ⟨_, _, _, h2, _⟩, _⟩ := h
  exact ⟨h1, h2⟩

/-- The events of entries and repeated matches are those of the input. -/
theorem greedy_events {RE HE : Type} {overl : HE → List RE} {score : RE → HE → MatchError}
    {earlier : List (Match RE HE)} {l : List HE} {entries rep : List (Match RE HE)}
    (h : Greedy overl score earlier l entries rep) : ∀ m ∈ entries ++ rep,
      (∀ x, m.hyp = some x → x ∈ l) ∧ ∀ r, m.ref = some r → ∃ x ∈ l, r ∈ overl x := by
  induction h with
  | nil => simp
  | cons earlier h hs entry repeats entries repeated h1 h2 _ ih =>
    have ih' : ∀ m ∈ entries ++ repeated, (∀ x, m.hyp = some x → x ∈ h :: hs) ∧
        ∀ r, m.ref = some r → ∃ x ∈ h :: hs, r ∈ overl x := by
      intro m hm
      obtain ⟨a, b⟩ := ih m hm
      exact ⟨fun x hx => List.mem_cons_of_mem _ (a x hx), fun r hr => by
        obtain ⟨x, hx, hrx⟩ := b r hr
        exact ⟨x, List.mem_cons_of_mem _ hx, hrx⟩⟩
    intro m hm
    simp only [List.mem_append] at hm
    rcases hm with (hm | hm) | (hm | hm)
    · rcases h1 with ⟨_, rfl⟩ | ⟨l1, r, l2, ho, _, _, _, rfl⟩ | ⟨_, _, rfl⟩
      · simp only [List.mem_singleton] at hm
        subst hm
        exact ⟨fun x hx => by simp at hx; simp [hx], fun r hr => by cases hr⟩
      · simp only [List.mem_singleton] at hm
        subst hm
        refine ⟨fun x hx => by simp at hx; simp [hx], fun r' hr => ⟨h, by simp, ?_⟩⟩
        simp only [Option.some.injEq] at hr
        rw [ho, ← hr]
        simp
      · cases hm
    · exact ih' m (by simp [hm])
    · obtain ⟨l1, l2, ho, _, _, rfl⟩ := h2
      obtain ⟨r, hr, rfl⟩ := List.mem_map.1 hm
      refine ⟨fun x hx => by simp at hx; simp [hx], fun r' hr' => ⟨h, by simp, ?_⟩⟩
      simp only [Option.some.injEq] at hr'
      rw [ho, ← hr']
      exact List.mem_append_left _ (List.mem_filter.1 hr).1
    · exact ih' m (by simp [hm])

theorem boxMatching_events {Q D : Type} [DecidableEq D] {refs : List (Event Q (DocBox D UInt32))}
    {l : List (ScoredEvent Q (DocBox D UInt32))}
    {ms rep : List (KwsMatch Q (DocBox D UInt32))} (h : BoxMatching refs l ms rep) :
    ∀ m ∈ ms ++ rep, (∀ x, m.hyp = some x → x ∈ l) ∧ ∀ r, m.ref = some r → r ∈ refs := by
  obtain ⟨overl, entries, missed, h1, h2, _, h4, rfl⟩ := h
  have key := greedy_events h2
  have key' : ∀ m ∈ entries ++ rep, (∀ x, m.hyp = some x → x ∈ l) ∧ ∀ r, m.ref = some r → r ∈ refs := by
    intro m hm
    refine ⟨(key m hm).1, fun r hr => ?_⟩
    obtain ⟨x, hx, hrx⟩ := (key m hm).2 r hr
    exact ((h1 x hx).2.1 r).1 hrx |>.1
  intro m hm
  simp only [List.mem_append] at hm
  rcases hm with (hm | hm) | hm
  · exact key' m (by simp [hm])
  · obtain ⟨r, hr, rfl⟩ := List.mem_map.1 hm
    refine ⟨fun x hx => (by cases hx), fun r' hr' => ?_⟩
    simp only [Option.some.injEq] at hr'
    rw [← hr']
    exact ((h4 r).1 hr).1
  · exact key' m (by simp [hm])

theorem keep_subset {E : Type} (q : E → Str) (qs : List Str) (es : List E) : ∀ e ∈ keep q qs es, e ∈ es := by
  intro e he
  unfold keep at he
  split at he
  · exact he
  · exact (List.mem_filter.1 he).1

section
variable {G : Type}

/-- C77: a run of the box tool that ends with a report and was asked for its matches writes this file
first. It lists the matches that `BoxMatching` describes, one per line, and they have names without
blanks (so that `C77_unambiguous` applies). -/
theorem C77_box_run (R : Rnd) (S : StdSort) (rng : Rng G) (w : World) (prog : Str) (argv : List Str)
    (p : Parser) (o : ToolOptions) (hp : (toolParser R).parse R argv = (.accepted, p))
    (ho : o = ToolOptions.ofParser p) (t u : Str)
    (refs : List (Event Str (DocBox Str UInt32))) (hyps : List (ScoredEvent Str (DocBox Str UInt32)))
    (ht : w.file o.refFilename = some t) (hu : hypText w o = some u)
    (hrefs : Yields BoxEventText (lines t) refs)
    (hhyps : Yields (ScoredText R BoxEventText) (lines u) hyps)
    (hr : ∀ r ∈ refs, EdgesOkU r.location.toBBox) (hh : ∀ h ∈ hyps, InRangeU h.base)
    (hR : R = Rnd.exact ∨ R.Faithful ∧ ∀ h ∈ hyps, areaU h.base ≤ 2 ^ 24)
    (r : Report Str (DocBox Str UInt32))
    (h : toolMain R S rng (icdarKit R S) w argv = .ok (.done r)) (hd : o.dumpMatches ≠ []) :
    ∃ l ms rep text curves,
      filesOf (traceMain R S rng (icdarKit R S) icdarTexts w prog argv).effects =
        (o.dumpMatches, text) :: curves ∧
      l.Perm (keep (·.base.query) (listedQueries w o) hyps) ∧
      BoxMatching (keep (·.query) (listedQueries w o) refs) l ms rep ∧
      DumpLines BoxEventLine ms rep (lines text) ∧ ∀ m ∈ ms ++ rep, NamesOk m := by
  have hw := (traceMain_writes R S rng _ icdarTexts w prog argv).done r h
  rw [toolMain_accepted hp, ← ho] at h
  have hopt : optionsOf R argv = o := by
    unfold optionsOf
    rw [hp, ho]
  rw [hopt] at hw
  have hr0 : o.refFilename ≠ [] := by
    intro hr
    unfold mainWith at h
    rw [if_pos hr] at h
    cases h
  have v1 := yields_valid hrefs
  have v2 := yields_valid hhyps
  rw [(icdar_plain R S).main_good S rng w o hr0 t u ht hu v1 v2,
    yields_events (Format.boxRefs (R := R)) hrefs, yields_events Format.boxHyps hhyps,
    (icdar_plain R S).mapQuery] at h
  cases hq : readQueryMap (fun (m : Unit) q => (m, (.ok q : Cpp Str))) w o () with
  | error x => rw [hq] at h; cases h
  | ok x =>
    rw [hq] at h
    cases x with
    | none => cases h
    | some q2g =>
      obtain ⟨q1, q2⟩ := readQueryMap_spec w o q2g hq
      obtain ⟨l, s', ms, rep, groups, e1, e2, e3, e4⟩ := evaluate_done R S rng (icdarKit R S) w o q2g
        refs hyps r h
      have k1 : usedRefs q2g refs = keep (·.query) (listedQueries w o) refs := by
        unfold usedRefs
        rw [filter_keep _ _ q1]
      have k2 : usedHyps q2g hyps = keep (·.base.query) (listedQueries w o) hyps := by
        unfold usedHyps
        rw [filter_keep _ _ q1]
      have hperm : l.Perm (usedHyps q2g hyps) := by
        have hfin := (icdar_plain R S).finite u v2
        rw [yields_events Format.boxHyps hhyps] at hfin
        by_cases hc : o.sort = "desc".toList ∨ o.sort = "asc".toList
        · obtain ⟨l', h1, _, h2⟩ := sortHyps_unique S S o.sort (usedHyps q2g hyps) (usedHyps q2g hyps)
            (fun x hx => hfin x (usedHyps_mem q2g hyps x hx)) (List.Perm.refl _) hc
          rw [h1] at e1
          injection e1 with e1
          rwa [← e1]
        · push Not at hc
          unfold sortHyps at e1
          rw [if_neg hc.1, if_neg hc.2] at e1
          injection e1 with e1
          rw [e1]
      have hsub : ∀ x ∈ l, x ∈ hyps := fun x hx => usedHyps_mem q2g hyps x (hperm.mem_iff.1 hx)
      rw [k2] at hperm
      rw [k1] at e2
      obtain ⟨s1, ms1, rep1, f1, f2⟩ := C17_box_matching R S DocEventSet.new
        (keep (·.query) (listedQueries w o) refs) l
        (fun x hx => hr x (keep_subset _ _ _ x hx)) (fun x hx => hh x (hsub x hx))
        (hR.imp id fun hf => ⟨hf.1, fun x hx => hf.2 x (hsub x hx)⟩)
      rw [show SimpleMatcher.run (icdarKit R S).index (icdarKit R S).scorer (icdarKit R S).refsSet
        (keep (·.query) (listedQueries w o) refs) l = _ from f1, Except.ok.injEq, Prod.mk.injEq,
        Prod.mk.injEq] at e2
      obtain ⟨_, rfl, rfl⟩ := e2
      have hdump : r.dump = some (ms1, rep1) := by
        rw [(assess_ok R S rng w o _ _ _ r e4).2.2.2.2, if_neg hd]
      have n1 := yields_all (fun _ _ _ h => box_names h) hrefs
      have n2 : ∀ e ∈ hyps, Word e.base.query ∧ Word e.base.location.document :=
        yields_all (fun _ _ _ h => by obtain ⟨_, h, _⟩ := h; exact box_names h) hhyps
      have names : ∀ m ∈ ms1 ++ rep1, NamesOk m := by
        intro m hm
        obtain ⟨a, b⟩ := boxMatching_events f2 m hm
        exact ⟨fun x hx => n2 x (hsub x (a x hx)), fun x hx => n1 x (keep_subset _ _ _ x (b x hx))⟩
      refine ⟨l, ms1, rep1, showDump icdarTexts.showEvent (ms1, rep1), curveFiles o r, ?_, hperm, f2,
        C77_lines_box ms1 rep1 names, names⟩
      rw [hw.2.1]
      unfold dumpFiles
      rw [hdump]
      rfl

end

/-- Worlds with one reference and one hypothesis, that can write all files. -/
def dumpExample (refs hyps : Str) : World where
  file f := if f = "ref".toList then some refs else none
  stdin := hyps
  writable _ := true

def dumpOptions : ToolOptions where
  refFilename := "ref".toList
  dumpMatches := "dump".toList
  alpha := 1 / 20

theorem dumpExample_file (refs hyps : Str) :
    (dumpExample refs hyps).file "ref".toList = some refs := by
  unfold dumpExample
  dsimp only
  rw [if_pos rfl]

/-- The output of a run only depends on the integers. -/
theorem dumpExample_trace {G : Type} (S : StdSort) (rng : Rng G) (refs hyps : Str)
    (h1 : ((simpleKit Rnd.exact true).readRef IntMapper.new refs).2 = ([⟨0, 1⟩], .ok))
    (h2 : ((simpleKit Rnd.exact true).readHyp
      ((simpleKit Rnd.exact true).readRef IntMapper.new refs).1 hyps).2 =
        ([⟨⟨0, 1⟩, .fin 1⟩], .ok)) :
    traceMainWith Rnd.exact S rng (simpleKit Rnd.exact true) simpleTexts (dumpExample refs hyps) 2
      dumpOptions =
      (do
        say ("INFO: Number of reference events read = ".toList ++ showNat 1)
        say ("INFO: Number of hypothesis events read = ".toList ++ showNat 1)
        traceEvaluate Rnd.exact S rng (simpleKit Rnd.exact true) simpleTexts (dumpExample [] [])
          dumpOptions [] [⟨0, 1⟩] [⟨⟨0, 1⟩, .fin 1⟩]) := by
  generalize hm : ((simpleKit Rnd.exact true).readRef IntMapper.new refs).1 = m at h2
  replace h1 : (simpleKit Rnd.exact true).readRef (simpleKit Rnd.exact true).mapper refs =
      (m, [⟨0, 1⟩], .ok) := Prod.ext hm h1
  generalize hm' : ((simpleKit Rnd.exact true).readHyp m hyps).1 = m'
  replace h2 : (simpleKit Rnd.exact true).readHyp m hyps = (m', [⟨⟨0, 1⟩, .fin 1⟩], .ok) :=
    Prod.ext hm' h2
  have e1 : traceRead ((simpleKit Rnd.exact true).readRef (simpleKit Rnd.exact true).mapper)
      ((dumpExample refs hyps).file dumpOptions.refFilename) = pure (some (m, [⟨0, 1⟩])) := by
    rw [show (dumpExample refs hyps).file dumpOptions.refFilename = some refs from
      dumpExample_file refs hyps]
    unfold traceRead
    dsimp only
    rw [h1]
  have e2 : traceRead ((simpleKit Rnd.exact true).readHyp m)
      (if dumpOptions.hypFilename = [] then some (dumpExample refs hyps).stdin
        else (dumpExample refs hyps).file dumpOptions.hypFilename) =
      pure (some (m', [⟨⟨0, 1⟩, .fin 1⟩])) := by
    rw [if_pos (show dumpOptions.hypFilename = [] from rfl)]
    unfold traceRead
    dsimp only
    rw [show (simpleKit Rnd.exact true).readHyp m (dumpExample refs hyps).stdin = _ from h2]
  unfold traceMainWith
  rw [if_neg (by decide), e1]
  simp only [pure_bind']
  rw [e2]
  rfl

/-- C77 does not extend to the segmentation tool: its file has integers instead of the names in the
input, so that different events lead to the same file (and the same output altogether). -/
theorem C77_names_refuted {G : Type} (S : StdSort) (rng : Rng G) : ∃ w w' : World,
    ∃ r r' : Event Str Str,
    (∃ t, w.file dumpOptions.refFilename = some t ∧ Yields StrEventText (lines t) [r]) ∧
    (∃ t, w'.file dumpOptions.refFilename = some t ∧ Yields StrEventText (lines t) [r']) ∧ r ≠ r' ∧
    let run := traceMainWith Rnd.exact S rng (simpleKit Rnd.exact true) simpleTexts w 2 dumpOptions
    run = traceMainWith Rnd.exact S rng (simpleKit Rnd.exact true) simpleTexts w' 2 dumpOptions ∧
    run.result = .ok 0 ∧ filesOf run.effects = [("dump".toList,
      ("Match[Hyp=0 1 1, Ref=0 1, Error=MatchError[fp=0, fn=0, nh=1, nr=1]]\n" ++
        "#### REPEATED MATCHES ####\n").toList)] := by
  have y1 : Yields StrEventText (lines "a l\n".toList) [⟨"a".toList, "l".toList⟩] :=
    (C48_accepts (Format.strRefs (R := Rnd.exact)) _ _).1 (by decide +kernel)
  have y2 : Yields StrEventText (lines "b l\n".toList) [⟨"b".toList, "l".toList⟩] :=
    (C48_accepts (Format.strRefs (R := Rnd.exact)) _ _).1 (by decide +kernel)
  have t1 := dumpExample_trace S rng "a l\n".toList "a l 1\n".toList (by decide +kernel)
    (by decide +kernel)
  have t2 := dumpExample_trace S rng "b l\n".toList "b l 1\n".toList (by decide +kernel)
    (by decide +kernel)
  refine ⟨dumpExample "a l\n".toList "a l 1\n".toList, dumpExample "b l\n".toList "b l 1\n".toList,
    _, _, ⟨_, dumpExample_file _ _, y1⟩, ⟨_, dumpExample_file _ _, y2⟩, by decide, ?_⟩
  dsimp only
  rw [t1, t2]
  refine ⟨rfl, ?_⟩
  obtain ⟨r, hr, hc⟩ := ((simple_seg Rnd.exact true).safe.evaluate_total Rnd.exact S rng
    (dumpExample [] []) dumpOptions [] [⟨0, 1⟩] [⟨⟨0, 1⟩, .fin 1⟩] 2
    ⟨fun h => by simp [dumpOptions] at h, fun h => absurd rfl h, fun h => absurd rfl h,
      fun h => by simp [dumpOptions] at h⟩ (by simp) le_rfl).2 (Or.inr rfl)
  have ha := traceEvaluate_agrees Rnd.exact S rng (simpleKit Rnd.exact true) simpleTexts
    (dumpExample [] []) dumpOptions [] [⟨0, 1⟩] [⟨⟨0, 1⟩, .fin 1⟩]
  obtain ⟨l, s', ms, rep, groups, e1, e2, e3, e4⟩ := evaluate_done _ _ _ _ _ _ _ _ _ r hr
  have hl : l = [⟨⟨0, 1⟩, .fin 1⟩] := by
    obtain ⟨l', h1, h2, _⟩ := sortHyps_desc S ([⟨⟨0, 1⟩, .fin 1⟩] : List (ScoredEvent Nat Nat))
      (by simp)
    have : l = l' := by
      have := e1.symm.trans h1
      injection this
    rw [this]
    exact List.perm_singleton.1 h2
  subst hl
  have hrun : (SimpleMatcher.run (plainIndex Nat Nat) trivialScorer EventSet.new [⟨0, 1⟩]
      [⟨⟨0, 1⟩, .fin 1⟩]).map (·.2) = .ok ([⟨some ⟨0, 1⟩, some ⟨⟨0, 1⟩, .fin 1⟩, ⟨0, 0⟩⟩], []) := by
    decide +kernel
  have hrun' : (Except.ok (s', ms, rep) : Cpp _).map (·.2) = .ok ([⟨some ⟨0, 1⟩,
      some ⟨⟨0, 1⟩, .fin 1⟩, ⟨0, 0⟩⟩], []) := by
    rw [← hrun, ← e2]
    rfl
  simp only [Except.map, Except.ok.injEq, Prod.mk.injEq] at hrun'
  obtain ⟨rfl, rfl⟩ := hrun'
  have hd := (assess_ok _ _ _ _ _ _ _ _ r e4).2.2.2.2
  have c1 : r.globalCurve = none := by
    have := hc.grp
    cases h : r.globalCurve with
    | none => rfl
    | some x => rw [h] at this; exact absurd (this.1 rfl) (by decide)
  have c2 : r.meanCurve = none := by
    have := hc.mrp
    cases h : r.meanCurve with
    | none => rfl
    | some x => rw [h] at this; exact absurd (this.1 rfl) (by decide)
  constructor
  · simp only [say_bind, ha.code, hr]
    rfl
  · simp only [say_bind, filesOf_err, (ha.done r hr).2.1]
    unfold dumpFiles curveFiles
    rw [hd, c1, c2, if_neg (by decide)]
    decide +kernel

deriving instance DecidableEq for OptVal
deriving instance DecidableEq for Parser

/-- The command line `icdar17-kws-eval --dump_matches dump ref`. -/
def dumpArgv : List Str := ["--dump_matches".toList, "dump".toList, "ref".toList]

def dumpParser : Parser :=
  ⟨AMap.set "dump_matches".toList (.str "dump".toList) (toolParser Rnd.exact).opts,
    [.str "ref".toList], (toolParser Rnd.exact).optArgs⟩

theorem dumpExample_parse :
    (toolParser Rnd.exact).parse Rnd.exact dumpArgv = (.accepted, dumpParser) := by
  have h : Parser.parseOptions Rnd.exact (toolParser Rnd.exact).opts false dumpArgv =
      .done (AMap.set "dump_matches".toList (.str "dump".toList) (toolParser Rnd.exact).opts) false
        ["ref".toList] := by
    unfold dumpArgv
    have hf : AMap.find? ("--dump_matches".toList.drop 2) (toolParser Rnd.exact).opts =
      some (.str []) := by decide +kernel
    rw [Parser.parseOptions, if_neg (by decide), if_neg (by decide), if_neg (by decide), hf]
    dsimp only
    rw [if_neg (by decide)]
    have hv : OptVal.parseOpt Rnd.exact (.str []) "dump".toList = (true, .str "dump".toList) := by
      decide +kernel
    rw [hv]
    dsimp only
    rw [if_pos rfl, Parser.parseOptions, if_pos (by decide)]
    rfl
  unfold Parser.parse
  rw [h]
  decide +kernel

theorem dumpExample_options : ToolOptions.ofParser dumpParser = dumpOptions := by
  decide +kernel

/-- A run of the box tool to which C77 applies: the command line, a report, and the file. -/
example {G : Type} (S : StdSort) (rng : Rng G) (prog : Str) :
    let w := dumpExample "a d 0 0 2 2\nb d 0 0 2 2\n".toList
      "b d 0 0 2 2 0.5\n\n# x\na d 9 9 2 2 1.5\n".toList
    ∃ l ms rep text curves, filesOf
        (traceMain Rnd.exact S rng (icdarKit Rnd.exact S) icdarTexts w prog dumpArgv).effects =
        ("dump".toList, text) :: curves ∧ l.length = 2 ∧
      BoxMatching [⟨"a".toList, ⟨⟨0, 0, 2, 2⟩, "d".toList⟩⟩, ⟨"b".toList, ⟨⟨0, 0, 2, 2⟩, "d".toList⟩⟩]
        l ms rep ∧ DumpLines BoxEventLine ms rep (lines text) := by
  intro w
  obtain ⟨y1, y2⟩ := runExample_yields
  have hp := dumpExample_parse
  have ho := dumpExample_options
  obtain ⟨r, hr, _⟩ := (C62_box_partial Rnd.exact S rng w dumpOptions
    (fun t u _ _ => ⟨fun h => by simp [dumpOptions] at h, fun h => absurd rfl h,
      fun h => absurd rfl h, fun h => by simp [dumpOptions] at h⟩)).1
    ⟨⟨by decide, ⟨_, dumpExample_file _ _, yields_valid y1⟩, ⟨_, if_pos rfl, yields_valid y2⟩,
      fun h => absurd rfl h, fun h => absurd rfl h⟩, Or.inr rfl⟩
  rw [← ho, ← toolMain_accepted hp] at hr
  obtain ⟨l, ms, rep, text, curves, h1, h2, h3, h4, _⟩ := C77_box_run Rnd.exact S rng w prog dumpArgv _ _ hp
    ho.symm _ _ _ _ (dumpExample_file _ _) (if_pos rfl) y1 y2 (by
      intro r hr
      simp only [List.mem_cons, List.not_mem_nil, or_false] at hr
      rcases hr with rfl | rfl <;> exact ⟨by decide, by decide⟩) (by
      intro r hr
      simp only [List.mem_cons, List.not_mem_nil, or_false] at hr
      rcases hr with rfl | rfl <;> exact ⟨⟨by decide, by decide⟩, by decide +kernel⟩)
    (Or.inl rfl) r hr (by decide)
  have hl : listedQueries w dumpOptions = [] := rfl
  rw [hl] at h2 h3
  exact ⟨l, ms, rep, text, curves, h1, h2.length_eq, h3, h4⟩

end Kws

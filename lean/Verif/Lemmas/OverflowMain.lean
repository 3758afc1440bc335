import Verif.Lemmas.OverflowInput
import Verif.Lemmas.OverflowNdcg
import Verif.Lemmas.Total
import Verif.Lemmas.Relabel
import Verif.Spec.Overflow

/-!
# Overflow: `Main`
-/

namespace Kws
open Spec Traced

/-! ## Statistics -/

section
variable {Q L G : Type} {R : Rnd} (h : Overflowing R)

/-- Options with values that their types can hold. -/
structure OptionsInRange (o : ToolOptions) : Prop where
  samples : o.samples ≤ 2 ^ 64
  curve : o.curveSamples ≤ 2 ^ 64
  alpha : |o.alpha| ≤ dblMax

include h

theorem globalStatistic_over (S : StdSort) (rng : Rng G) (boot : Bool) {o : ToolOptions} (ho : OptionsInRange o)
    {ms : List (KwsMatch Q L)} {gs : List (List (KwsMatch Q L))} (hg : TinyGroups gs)
    {plain plain' : List (KwsMatch Q L) → Cpp ℚ} {grouped grouped' : List (List (KwsMatch Q L)) → Bool → Cpp ℚ}
    (hp : plain ms = plain' ms) (he : ∀ c, SmallGroups c → grouped c true = grouped' c true)
    (hb : ∀ c v, SmallGroups c → grouped' c true = .ok v → |v| ≤ 2 ^ 400) :
    globalStatistic R S R.f64 rng boot o ms gs plain grouped =
      globalStatistic Rnd.ieee S Rnd.ieee.f64 rng boot o ms gs plain' grouped' := by
  unfold globalStatistic
  rw [hp, percentileCIGrouped_over h S rng hg ho.samples ho.alpha o.seed he hb]

theorem meanStatistic_over (S : StdSort) (rng : Rng G) (boot : Bool) {o : ToolOptions} (ho : OptionsInRange o)
    {gs : List (List (KwsMatch Q L))} (hg : TinyGroups gs)
    {grouped grouped' : List (List (KwsMatch Q L)) → Bool → Cpp ℚ}
    (he : ∀ c b, SmallGroups c → grouped c b = grouped' c b)
    (hb : ∀ c v, SmallGroups c → grouped' c true = .ok v → |v| ≤ 2 ^ 400) :
    meanStatistic R S R.f64 rng boot o gs grouped =
      meanStatistic Rnd.ieee S Rnd.ieee.f64 rng boot o gs grouped' := by
  unfold meanStatistic
  rw [he gs false hg.small,
    percentileCIGrouped_over h S rng hg ho.samples ho.alpha o.seed (fun c hc => he c true hc) hb]

theorem globalStatistic_over_real (S : StdSort) (rng : Rng G) (boot : Bool) {o : ToolOptions}
    (ho : OptionsInRange o) {ms : List (KwsMatch Q L)} {gs : List (List (KwsMatch Q L))} (hg : TinyGroups gs)
    {plain plain' : List (KwsMatch Q L) → Cpp ℝ} {grouped grouped' : List (List (KwsMatch Q L)) → Bool → Cpp ℝ}
    (hp : plain ms = plain' ms) (he : ∀ c, SmallGroups c → grouped c true = grouped' c true) :
    globalStatistic R S id rng boot o ms gs plain grouped =
      globalStatistic Rnd.ieee S id rng boot o ms gs plain' grouped' := by
  unfold globalStatistic
  rw [hp, percentileCIGrouped_over_real h S rng hg ho.samples ho.alpha o.seed he]

theorem meanStatistic_over_real (S : StdSort) (rng : Rng G) (boot : Bool) {o : ToolOptions} (ho : OptionsInRange o)
    {gs : List (List (KwsMatch Q L))} (hg : TinyGroups gs)
    {grouped grouped' : List (List (KwsMatch Q L)) → Bool → Cpp ℝ}
    (he : ∀ c b, SmallGroups c → grouped c b = grouped' c b) :
    meanStatistic R S id rng boot o gs grouped = meanStatistic Rnd.ieee S id rng boot o gs grouped' := by
  unfold meanStatistic
  rw [he gs false hg.small,
    percentileCIGrouped_over_real h S rng hg ho.samples ho.alpha o.seed (fun c hc => he c true hc)]

theorem traceAssess_over (S : StdSort) (rng : Rng G) (w : World) {o : ToolOptions} (ho : OptionsInRange o)
    {ms : List (KwsMatch Q L)} (hm : SmallMatches ms) {gs : List (List (KwsMatch Q L))} (hg : TinyGroups gs) :
    traceAssess R S rng w o ms gs = traceAssess Rnd.ieee S rng w o ms gs := by
  unfold traceAssess
  rw [globalStatistic_over h S rng o.ciGap ho hg (plain' := fun ms => globalAP Rnd.ieee ms o.collapse o.interp o.trapezoid)
      (globalAP_over h hm o.collapse o.interp o.trapezoid)
      (fun c hc => globalAPGrouped_over h S hc o.collapse o.interp o.trapezoid true)
      (fun c v hc hv => globalAPGrouped_small S hc hv),
    meanStatistic_over h S rng o.ciMap ho hg
      (fun c b hc => meanAP_over h S hc o.collapse o.interp o.trapezoid b)
      (fun c v hc hv => meanAP_small S hc hv),
    globalStatistic_over_real h S rng o.ciGndcg ho hg
      (plain' := fun ms => .ok (globalNDCG Rnd.ieee ms o.collapse))
      (congrArg Except.ok (globalNDCG_over h hm o.collapse))
      (fun c hc => globalNDCGGrouped_over h S hc o.collapse true),
    meanStatistic_over_real h S rng o.ciMndcg ho hg (fun c b hc => meanNDCG_over h S hc o.collapse b),
    globalRPCurve_over h w o.outputGrp hm ho.curve, meanRPCurve_over h w o.outputMrp hg.small ho.curve]

theorem traceAssessD_over {lm : Libm} (hl : lm.Sane) (S : StdSort) (rng : Rng G) (w : World) {o : ToolOptions}
    (ho : OptionsInRange o) {ms : List (KwsMatch Q L)} (hm : SmallMatches ms) {gs : List (List (KwsMatch Q L))}
    (hg : TinyGroups gs) : traceAssessD R lm S rng w o ms gs = traceAssessD Rnd.ieee lm S rng w o ms gs := by
  unfold traceAssessD
  rw [globalStatistic_over h S rng o.ciGap ho hg (plain' := fun ms => globalAP Rnd.ieee ms o.collapse o.interp o.trapezoid)
      (globalAP_over h hm o.collapse o.interp o.trapezoid)
      (fun c hc => globalAPGrouped_over h S hc o.collapse o.interp o.trapezoid true)
      (fun c v hc hv => globalAPGrouped_small S hc hv),
    meanStatistic_over h S rng o.ciMap ho hg
      (fun c b hc => meanAP_over h S hc o.collapse o.interp o.trapezoid b)
      (fun c v hc hv => meanAP_small S hc hv),
    globalStatistic_over h S rng o.ciGndcg ho hg (plain' := fun ms => globalNDCGD Rnd.ieee lm ms o.collapse)
      (globalNDCGD_over h hl hm o.collapse).1
      (fun c hc => (globalNDCGGroupedD_over h hl S hc o.collapse true).1)
      (fun c v hc hv => (globalNDCGGroupedD_over h hl S hc o.collapse true).2 v hv),
    meanStatistic_over h S rng o.ciMndcg ho hg (fun c b hc => (meanNDCGD_over h hl S hc o.collapse b).1)
      (fun c v hc hv => (meanNDCGD_over h hl S hc o.collapse true).2 v hv),
    globalRPCurve_over h w o.outputGrp hm ho.curve, meanRPCurve_over h w o.outputMrp hg.small ho.curve]

end

/-! ## Matching -/

theorem traced_bind_congr {α β : Type} {x : Traced α} {f g : α → Traced β}
    (hfg : ∀ a, x.result = .ok a → f a = g a) : x >>= f = x >>= g := by
  show (match x.result with
    | .error e => (⟨x.effects, .error e⟩ : Traced β)
    | .ok a => ⟨x.effects ++ (f a).effects, (f a).result⟩) = _
  cases hx : x.result with
  | error e => simp only [bind, hx]
  | ok a => simp only [bind, hx, hfg a hx]

section
variable {μ σ Q L G : Type} [DecidableEq Q] [Cmp Q] [LawfulCmp Q] [Cmp L] [LawfulCmp L]

/-- What is left after matching and grouping is small. -/
theorem matched_tiny {kit : ToolKit μ σ Q L} (hk : SafeKit kit) {refs : List (Event Q L)}
    {hyps : List (ScoredEvent Q L)} (hn : refs.length + hyps.length ≤ 2 ^ 62) {s' : σ}
    {ms rep : List (KwsMatch Q L)}
    (hr : SimpleMatcher.run kit.index kit.scorer kit.refsSet refs hyps = .ok (s', ms, rep)) :
    SmallMatches ms ∧ ∀ q2g gs, groupMatches q2g ms = .ok gs → TinyGroups gs := by
  have hu : UnitErrors ms := by
    intro m hm
    obtain ⟨h1, h2⟩ := run_hard kit.index kit.scorer _ s' refs hyps ms rep hr hk.hard m hm
    constructor
    · rcases h1 with e | e <;> rw [e] <;> norm_num
    · rcases h2 with e | e <;> rw [e] <;> norm_num
  have hl := (run_length kit.index kit.scorer _ s' refs hyps ms rep hr).trans hn
  refine ⟨⟨hu, hl.trans (by norm_num)⟩, fun q2g gs hg => ?_⟩
  obtain ⟨g1, _, g3⟩ := groupMatches_facts q2g ms gs hg
  have hf : gs.flatten.length ≤ 2 ^ 62 := by rw [g1.length_eq]; exact hl
  exact ⟨fun m hm => hu m (g1.mem_iff.1 hm), hf, (groups_length gs g3).trans hf⟩

omit [DecidableEq Q] [LawfulCmp Q] [LawfulCmp L] in
theorem sortHyps_length (S : StdSort) (c : Str) {hyps hyps' : List (ScoredEvent Q L)}
    (hs : sortHyps S c hyps = .ok hyps') : hyps'.length = hyps.length := by
  unfold sortHyps at hs
  split at hs
  · exact (sort_perm_of S hs).length_eq
  · split at hs
    · exact (sort_perm_of S hs).length_eq
    · injection hs with hs
      rw [hs]

variable {R : Rnd} (h : Overflowing R)
include h

theorem traceMatchAndAssess_over (S : StdSort) (rng : Rng G) {kit : ToolKit μ σ Q L} (hk : SafeKit kit)
    (texts : ToolTexts Q L) (w : World) {o : ToolOptions} (ho : OptionsInRange o) (q2g : List (Q × Q))
    {refs : List (Event Q L)} {hyps : List (ScoredEvent Q L)} (hn : refs.length + hyps.length ≤ 2 ^ 62) :
    traceMatchAndAssess R S rng kit texts w o q2g refs hyps =
      traceMatchAndAssess Rnd.ieee S rng kit texts w o q2g refs hyps := by
  unfold traceMatchAndAssess
  refine traced_bind_congr fun hyps' hs => ?_
  have hlen := sortHyps_length S o.sort (show sortHyps S o.sort hyps = .ok hyps' from hs)
  refine traced_bind_congr fun _ _ => traced_bind_congr fun _ _ => traced_bind_congr fun r hr => ?_
  obtain ⟨s', ms, rep⟩ := r
  obtain ⟨m1, m2⟩ := matched_tiny hk (refs := refs) (hyps := hyps') (by rw [hlen]; exact hn) hr
  dsimp only
  split
  · rfl
  · refine traced_bind_congr fun _ _ => ?_
    split
    · rfl
    · refine traced_bind_congr fun _ _ => traced_bind_congr fun gs hg => ?_
      exact traceAssess_over h S rng w ho m1 (m2 q2g gs hg)

theorem traceMatchAndAssessD_over {lm : Libm} (hl : lm.Sane) (S : StdSort) (rng : Rng G) {kit : ToolKit μ σ Q L}
    (hk : SafeKit kit) (texts : ToolTexts Q L) (w : World) {o : ToolOptions} (ho : OptionsInRange o)
    (q2g : List (Q × Q)) {refs : List (Event Q L)} {hyps : List (ScoredEvent Q L)}
    (hn : refs.length + hyps.length ≤ 2 ^ 62) :
    traceMatchAndAssessD R lm S rng kit texts w o q2g refs hyps =
      traceMatchAndAssessD Rnd.ieee lm S rng kit texts w o q2g refs hyps := by
  unfold traceMatchAndAssessD
  refine traced_bind_congr fun hyps' hs => ?_
  have hlen := sortHyps_length S o.sort (show sortHyps S o.sort hyps = .ok hyps' from hs)
  refine traced_bind_congr fun _ _ => traced_bind_congr fun _ _ => traced_bind_congr fun r hr => ?_
  obtain ⟨s', ms, rep⟩ := r
  obtain ⟨m1, m2⟩ := matched_tiny hk (refs := refs) (hyps := hyps') (by rw [hlen]; exact hn) hr
  dsimp only
  split
  · rfl
  · refine traced_bind_congr fun _ _ => ?_
    split
    · rfl
    · refine traced_bind_congr fun _ _ => traced_bind_congr fun gs hg => ?_
      exact traceAssessD_over h hl S rng w ho m1 (m2 q2g gs hg)

theorem traceEvaluate_over (S : StdSort) (rng : Rng G) {kit : ToolKit μ σ Q L} (hk : SafeKit kit)
    (texts : ToolTexts Q L) (w : World) {o : ToolOptions} (ho : OptionsInRange o) (q2g : List (Q × Q))
    {refs : List (Event Q L)} {hyps : List (ScoredEvent Q L)} (hn : refs.length + hyps.length ≤ 2 ^ 62) :
    traceEvaluate R S rng kit texts w o q2g refs hyps =
      traceEvaluate Rnd.ieee S rng kit texts w o q2g refs hyps := by
  have f1 : (filterEvents q2g (·.query) refs).length ≤ refs.length := List.length_filter_le ..
  have f2 : (filterEvents q2g (·.base.query) hyps).length ≤ hyps.length := List.length_filter_le ..
  unfold traceEvaluate
  rw [traceMatchAndAssess_over h S rng hk texts w ho q2g hn]
  split
  · rfl
  · refine traced_bind_congr fun _ _ => traced_bind_congr fun _ _ => traced_bind_congr fun _ _ => ?_
    exact traceMatchAndAssess_over h S rng hk texts w ho q2g (by omega)

theorem traceEvaluateD_over {lm : Libm} (hl : lm.Sane) (S : StdSort) (rng : Rng G) {kit : ToolKit μ σ Q L}
    (hk : SafeKit kit) (texts : ToolTexts Q L) (w : World) {o : ToolOptions} (ho : OptionsInRange o)
    (q2g : List (Q × Q)) {refs : List (Event Q L)} {hyps : List (ScoredEvent Q L)}
    (hn : refs.length + hyps.length ≤ 2 ^ 62) :
    traceEvaluateD R lm S rng kit texts w o q2g refs hyps =
      traceEvaluateD Rnd.ieee lm S rng kit texts w o q2g refs hyps := by
  have f1 : (filterEvents q2g (·.query) refs).length ≤ refs.length := List.length_filter_le ..
  have f2 : (filterEvents q2g (·.base.query) hyps).length ≤ hyps.length := List.length_filter_le ..
  unfold traceEvaluateD
  rw [traceMatchAndAssessD_over h hl S rng hk texts w ho q2g hn]
  split
  · rfl
  · refine traced_bind_congr fun _ _ => traced_bind_congr fun _ _ => traced_bind_congr fun _ _ => ?_
    exact traceMatchAndAssessD_over h hl S rng hk texts w ho q2g (by omega)

end

/-! ## Reading -/

theorem readLoop_length {μ E1 E2 : Type} (ex : Extractor E1) (map : μ → E1 → μ × Cpp E2) (fuel n : ℕ) (m : μ)
    (s : IStream) : (readLoop ex map fuel n m s).2.1.length ≤ fuel := by
  induction fuel generalizing n m s with
  | zero => simp [readLoop]
  | succ fuel ih =>
    unfold readLoop
    dsimp only
    split
    · split
      · exact (ih _ _ _).trans (Nat.le_succ _)
      · simp
      · simp
      · split
        · simp
        · simp only [List.length_cons]
          exact Nat.succ_le_succ (ih _ _ _)
    · simp

theorem readEvents_length {μ E1 E2 : Type} (ex : Extractor E1) (map : μ → E1 → μ × Cpp E2) (m : μ) (text : Str) :
    (readEvents ex map m text).2.1.length ≤ text.length + 1 := readLoop_length ..

/-- Readers that make at most one event out of a line. -/
structure SmallReads {μ σ Q L : Type} (kit : ToolKit μ σ Q L) : Prop where
  ref : ∀ m t, (kit.readRef m t).2.1.length ≤ t.length + 1
  hyp : ∀ m t, (kit.readHyp m t).2.1.length ≤ t.length + 1

theorem traceRead_length {μ E : Type} {read : Str → μ × List E × ReadStatus} {text : Option Str} {n : ℕ}
    (hn : ∀ t, text = some t → (read t).2.1.length ≤ n) {r : μ × List E}
    (hr : (traceRead read text).result = .ok (some r)) : r.2.length ≤ n := by
  unfold traceRead at hr
  cases text with
  | none => cases hr
  | some t =>
    have := hn t rfl
    cases hx : read t with
    | mk m r' =>
      obtain ⟨es, st⟩ := r'
      rw [hx] at this
      simp only [hx] at hr
      cases st with
      | ok =>
        injection hr with hr
        injection hr with hr
        subst hr
        exact this
      | badLine n => cases hr
      | badStream => cases hr
      | fault f => cases hr

section
variable {μ σ Q L G : Type} [DecidableEq Q] [Cmp Q] [LawfulCmp Q] [Cmp L] [LawfulCmp L]
variable {R : Rnd} (h : Overflowing R)
include h

theorem traceMainWith_over (S : StdSort) (rng : Rng G) {kit : ToolKit μ σ Q L} (hk : SafeKit kit)
    (hr : SmallReads kit) (texts : ToolTexts Q L) {w : World} (hw : SmallInputs w) (argc : ℕ) {o : ToolOptions}
    (ho : OptionsInRange o) :
    traceMainWith R S rng kit texts w argc o = traceMainWith Rnd.ieee S rng kit texts w argc o := by
  unfold traceMainWith
  split
  · rfl
  refine traced_bind_congr fun r1 h1 => ?_
  cases r1 with
  | none => rfl
  | some r1 =>
    have n1 := traceRead_length (n := 2 ^ 60)
      (fun t ht => (hr.ref kit.mapper t).trans (Nat.succ_le_of_lt (hw.file _ t ht))) h1
    obtain ⟨m, refs⟩ := r1
    refine traced_bind_congr fun _ _ => traced_bind_congr fun r2 h2 => ?_
    cases r2 with
    | none => rfl
    | some r2 =>
      have n2 := traceRead_length (n := 2 ^ 60) (fun t ht => (hr.hyp m t).trans (Nat.succ_le_of_lt (by
        split at ht
        · injection ht with ht
          rw [← ht]
          exact hw.stdin
        · exact hw.file _ t ht))) h2
      obtain ⟨m', hyps⟩ := r2
      refine traced_bind_congr fun _ _ => traced_bind_congr fun q2g _ => ?_
      cases q2g with
      | none => rfl
      | some q2g =>
        refine traceEvaluate_over h S rng hk texts w ho q2g ?_
        dsimp only at n1 n2
        omega

theorem traceMainWithD_over {lm : Libm} (hl : lm.Sane) (S : StdSort) (rng : Rng G) {kit : ToolKit μ σ Q L}
    (hk : SafeKit kit) (hr : SmallReads kit) (texts : ToolTexts Q L) {w : World} (hw : SmallInputs w) (argc : ℕ)
    {o : ToolOptions} (ho : OptionsInRange o) :
    traceMainWithD R lm S rng kit texts w argc o = traceMainWithD Rnd.ieee lm S rng kit texts w argc o := by
  unfold traceMainWithD
  split
  · rfl
  refine traced_bind_congr fun r1 h1 => ?_
  cases r1 with
  | none => rfl
  | some r1 =>
    have n1 := traceRead_length (n := 2 ^ 60)
      (fun t ht => (hr.ref kit.mapper t).trans (Nat.succ_le_of_lt (hw.file _ t ht))) h1
    obtain ⟨m, refs⟩ := r1
    refine traced_bind_congr fun _ _ => traced_bind_congr fun r2 h2 => ?_
    cases r2 with
    | none => rfl
    | some r2 =>
      have n2 := traceRead_length (n := 2 ^ 60) (fun t ht => (hr.hyp m t).trans (Nat.succ_le_of_lt (by
        split at ht
        · injection ht with ht
          rw [← ht]
          exact hw.stdin
        · exact hw.file _ t ht))) h2
      obtain ⟨m', hyps⟩ := r2
      refine traced_bind_congr fun _ _ => traced_bind_congr fun q2g _ => ?_
      cases q2g with
      | none => rfl
      | some q2g =>
        refine traceEvaluateD_over h hl S rng hk texts w ho q2g ?_
        dsimp only at n1 n2
        omega

omit h in
theorem registerAll_range (l : List (String × OptVal)) (hl : ∀ x ∈ l, InRange x.2) (p : Parser)
    (hp : ∀ x ∈ p.opts, InRange x.2) :
    ∀ x ∈ (l.foldl (fun (p : Parser) nv => (p.registerOption nv.1.toList nv.2).2) p).opts, InRange x.2 := by
  induction l generalizing p with
  | nil => exact hp
  | cons a l ih =>
    refine ih (fun x hx => hl x (by simp [hx])) _ ?_
    have ha := hl a (by simp)
    beta_reduce
    unfold Parser.registerOption AMap.emplace
    split
    · exact hp
    · split
      · exact hp
      · rename_i hf
        rw [hf]
        intro x hx
        rcases List.mem_append.1 hx with hx | hx
        · exact hp x hx
        · rw [List.mem_singleton.1 hx]
          exact ha

omit h in
theorem toolParser_range : ∀ x ∈ (toolParser Rnd.ieee).opts, InRange x.2 := by
  have hd : |Rnd.ieee.f64 (5 / 100)| ≤ dblMax :=
    (ieee_bound64 0 (by rw [abs_of_pos] <;> norm_num)).trans (pow_le_dblMax (by norm_num))
  generalize hR : Rnd.ieee = R' at hd ⊢
  clear hR
  unfold toolParser
  simp only [Parser.registerArgument, Parser.registerOptArgument]
  generalize R'.f64 (5 / 100) = a at hd ⊢
  refine registerAll_range _ ?_ Parser.new (fun x hx => absurd hx List.not_mem_nil)
  have hd' : InRange (.double a) := hd
  have hn : ∀ n, n ≤ 100000 → InRange (.size n) := fun n hn => show n ≤ 2 ^ 64 by omega
  have hb : ∀ b, InRange (.bool b) := fun _ => trivial
  have hs : ∀ b, InRange (.str b) := fun _ => trivial
  simp only [List.forall_mem_cons, List.not_mem_nil, IsEmpty.forall_iff, implies_true, and_true]
  exact ⟨hb _, hb _, hb _, hs _, hs _, hs _, hb _, hb _, hb _, hb _, hn _ (by norm_num), hn _ (by norm_num), hd',
    hs _, hs _, hs _, hn _ (by norm_num)⟩

omit h in
theorem ofParser_range {p : Parser} (hp : ∀ x ∈ p.opts, InRange x.2) : OptionsInRange (ToolOptions.ofParser p) := by
  have hn : ∀ name, asNat (optValue p name) ≤ 2 ^ 64 := by
    intro name
    cases hv : optValue p name with
    | none => simp [asNat]
    | some v =>
      obtain ⟨x, hx, rfl⟩ := find?_mem hv
      have := hp x hx
      cases hx2 : x.2 with
      | size n => rw [hx2] at this; exact this
      | bool b => simp [asNat]
      | int32 b => simp [asNat]
      | double b => simp [asNat]
      | str b => simp [asNat]
  refine ⟨hn _, hn _, ?_⟩
  show |asRat (optValue p "bootstrap_alpha")| ≤ dblMax
  cases hv : optValue p "bootstrap_alpha" with
  | none => simpa [asRat] using dblMax_nonneg
  | some v =>
    obtain ⟨x, hx, rfl⟩ := find?_mem hv
    have := hp x hx
    cases hx2 : x.2 with
    | double n => rw [hx2] at this; exact this
    | bool b => simpa [asRat] using dblMax_nonneg
    | int32 b => simpa [asRat] using dblMax_nonneg
    | size b => simpa [asRat] using dblMax_nonneg
    | str b => simpa [asRat] using dblMax_nonneg

theorem traceMain_over (S : StdSort) (rng : Rng G) {kit : ToolKit μ σ Q L} (hk : SafeKit kit)
    (hr : SmallReads kit) (texts : ToolTexts Q L) {w : World} (hw : SmallInputs w) (prog : Str) (argv : List Str) :
    traceMain R S rng kit texts w prog argv = traceMain Rnd.ieee S rng kit texts w prog argv := by
  have hp := parse_range Rnd.ieee (toolParser Rnd.ieee) argv toolParser_range
  unfold traceMain
  rw [toolParser_over h, parse_over h, message_over h]
  cases hx : (toolParser Rnd.ieee).parse Rnd.ieee argv with
  | mk outcome p =>
    rw [hx] at hp
    cases outcome with
    | exitHelp => rfl
    | rejected => rfl
    | accepted => exact traceMainWith_over h S rng hk hr texts hw _ (ofParser_range hp)

theorem traceMainD_over {lm : Libm} (hl : lm.Sane) (S : StdSort) (rng : Rng G) {kit : ToolKit μ σ Q L}
    (hk : SafeKit kit) (hr : SmallReads kit) (texts : ToolTexts Q L) {w : World} (hw : SmallInputs w) (prog : Str)
    (argv : List Str) :
    traceMainD R lm S rng kit texts w prog argv = traceMainD Rnd.ieee lm S rng kit texts w prog argv := by
  have hp := parse_range Rnd.ieee (toolParser Rnd.ieee) argv toolParser_range
  unfold traceMainD
  rw [toolParser_over h, parse_over h, message_over h]
  cases hx : (toolParser Rnd.ieee).parse Rnd.ieee argv with
  | mk outcome p =>
    rw [hx] at hp
    cases outcome with
    | exitHelp => rfl
    | rejected => rfl
    | accepted => exact traceMainWithD_over h hl S rng hk hr texts hw _ (ofParser_range hp)

end

theorem icdar_reads_over (R : Rnd) (S : StdSort) : SmallReads (icdarKit R S) :=
  ⟨fun _ _ => readEvents_length .., fun _ _ => readEvents_length ..⟩

theorem simple_reads_over (R : Rnd) (b : Bool) : SmallReads (simpleKit R b) :=
  ⟨fun _ _ => readEvents_length .., fun _ _ => readEvents_length ..⟩

theorem simple_safe (R : Rnd) (b : Bool) : SafeKit (simpleKit R b) := SegKit.safe ⟨rfl, rfl⟩

end Kws

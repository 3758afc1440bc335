import Verif.Props.Hits
import Verif.Props.Scorers

/-!
# C101: the threshold of a scorer
-/

namespace Kws
open Spec Classical

variable {RE HE : Type}

/-- Hypotheses that stop earlier in their lists pick at most as often. -/
theorem picked_prefix {pref pref' : HE → List RE} (hs : List HE)
    (h : ∀ x ∈ hs, ∃ ext, pref x = pref' x ++ ext) :
    ∀ T : Set RE, picked pref' T hs ≤ picked pref T hs := by
  induction hs with
  | nil => intro T; exact Nat.le_refl _
  | cons x hs ih =>
    intro T
    have ih := ih (fun y hy => h y (by simp [hy]))
    obtain ⟨ext, hx⟩ := h x (by simp)
    rcases picked_cons pref' T x hs with ⟨r, h1, e⟩ | ⟨h1, e⟩
    · rw [e, picked_some (pref := pref) (r := r) (by rw [hx, List.find?_append, h1]; rfl)]
      exact Nat.add_le_add_right (ih _) 1
    · rw [e]
      rcases picked_cons pref T x hs with ⟨r, _, e'⟩ | ⟨_, e'⟩
      · rw [e']
        exact (ih T).trans (picked_less pref hs T r).2
      · rw [e']
        exact ih T

/-- What is accepted more strictly comes first, if acceptance of an element implies that of the earlier
ones. -/
theorem filter_prefix (p q : RE → Bool) (l : List RE) (hqp : ∀ x ∈ l, q x = true → p x = true)
    (hl : l.Pairwise (fun x y => q y = true → q x = true)) :
    ∃ ext, l.filter p = l.filter q ++ ext := by
  induction l with
  | nil => exact ⟨[], rfl⟩
  | cons x l ih =>
    obtain ⟨h1, h2⟩ := List.pairwise_cons.1 hl
    by_cases hq : q x = true
    · obtain ⟨ext, e⟩ := ih (fun y hy => hqp y (by simp [hy])) h2
      exact ⟨ext, by rw [List.filter_cons_of_pos (hqp x (by simp) hq), List.filter_cons_of_pos hq, e]; rfl⟩
    · refine ⟨(x :: l).filter p, ?_⟩
      have : (x :: l).filter q = [] := by
        rw [List.filter_eq_nil_iff]
        intro y hy
        rcases List.mem_cons.1 hy with rfl | hy
        · exact hq
        · exact fun h => hq (h1 y hy h)
      rw [this, List.nil_append]

theorem f32_pos {R : Rnd} (hR : R.Faithful) {n : ℕ} (h : 0 < n) : 1 ≤ R.f32 (R.f32 (n : ℚ)) := by
  have h1 : R.f32 1 = 1 := by simpa using hR.nat32 1 (by norm_num)
  have h2 : (1 : ℚ) ≤ R.f32 n := by
    have := hR.mono32 1 n (by exact_mod_cast h)
    rwa [h1] at this
  have := hR.mono32 1 _ h2
  rwa [h1] at this

/-- Acceptance grows with the numerator and falls with the denominator and the threshold. -/
theorem ratio_mono {R : Rnd} (hR : R.Faithful) {m n d e : UInt32} {a b : ℚ} (hd : 0 < d.toNat)
    (hmn : m ≤ n) (hde : d ≤ e) (hab : a ≤ b)
    (h : ratioAtLeast R m e b = true) : ratioAtLeast R n d a = true := by
  have hde' : d.toNat ≤ e.toNat := UInt32.le_iff_toNat_le.1 hde
  have hmn' : m.toNat ≤ n.toNat := UInt32.le_iff_toNat_le.1 hmn
  have hd1 := f32_pos hR hd
  have he1 := f32_pos hR (hd.trans_le hde')
  rw [ratio_eq _ _ _ _ (by linarith), decide_eq_true_eq] at h ⊢
  refine le_trans hab (le_trans h (hR.mono32 _ _ ?_))
  have hm0 : (0 : ℚ) ≤ R.f32 (m.toNat : ℚ) := by
    have h0 : R.f32 0 = 0 := by simpa using hR.nat32 0 (by norm_num)
    have := hR.mono32 0 (m.toNat : ℚ) (by positivity)
    rwa [h0] at this
  have hm := hR.mono32 (m.toNat : ℚ) n.toNat (by exact_mod_cast hmn')
  have hdd := hR.mono32 _ _ (hR.mono32 (d.toNat : ℚ) e.toNat (by exact_mod_cast hde'))
  exact div_le_div₀ (hm0.trans hm) hm (by linarith) hdd

theorem hit_miss (ms : List (Match RE HE)) :
    hitCount ms + missCount ms = (ms.filterMap (·.ref)).length := by
  induction ms with
  | nil => rfl
  | cons m ms ih =>
    unfold hitCount missCount at *
    obtain ⟨r, x, e⟩ := m
    cases r <;> cases x <;> simp at * <;> omega

section
variable {Q D : Type} [DecidableEq Q] [DecidableEq D] [Cmp Q] [LawfulCmp Q] [Cmp D] [LawfulCmp D]

/-- The overlapping references of each hypothesis and the decisions about them. -/
theorem ioh_search (R : Rnd) (S : StdSort) (s : DocEventSet Q D UInt32)
    (refs : List (Event Q (DocBox D UInt32))) (hR : R.Faithful) :
    ∃ (overl : ScoredEvent Q (DocBox D UInt32) → List (Event Q (DocBox D UInt32)))
      (ok : ℚ → Event Q (DocBox D UInt32) → ScoredEvent Q (DocBox D UInt32) → Prop),
      (∀ h, (docIndex S Q D UInt32).findOverlapping
        (refs.foldl (docIndex S Q D UInt32).insert ((docIndex S Q D UInt32).clear s)) h =
        .ok (overl h)) ∧ (∀ h, ∀ r ∈ overl h, r ∈ refs) ∧
      (∀ a h r, iohScorer R a r h = .ok (verdict (ok a r h))) ∧
      (∀ a b h r, a ≤ b → ok b r h → ok a r h) ∧
      ∀ a h, (overl h).Pairwise (fun x y => ok a y h → ok a x h) := by
  have h1 := fun h => C17_box_search S s refs h
  choose overl a1 _ a3 a4 using h1
  have h2 := fun (r : Event Q (DocBox D UInt32)) (h : ScoredEvent Q (DocBox D UInt32)) => inter_ok r h.base
  choose inter hi using h2
  refine ⟨overl, fun a r h => r.query = h.base.query ∧
    0 < (h.base.location.w * h.base.location.h).toNat ∧
    ratioAtLeast R (inter r h) (h.base.location.w * h.base.location.h) a = true, a1,
    fun h r hr => ((a3 h r).1 hr).1, fun a h r => ?_, fun a b h r hab hb => ?_, fun a h => ?_⟩
  · rw [ioh_eq R a r h _ (hi r h)]
    congr
  · exact ⟨hb.1, hb.2.1, ratio_mono hR hb.2.1 (UInt32.le_refl _) (UInt32.le_refl _) hab hb.2.2⟩
  · refine List.Pairwise.imp_of_mem (fun {x y} hx hy hxy hok => ?_) (a4 h)
    obtain ⟨u, v, e1, e2, huv⟩ := hxy
    have hx' := (a3 h x).1 hx
    have hy' := (a3 h y).1 hy
    have key : ∀ (z : Event Q (DocBox D UInt32)) v, z.location.document = h.base.location.document →
        z.location.toBBox.intersectionArea h.base.location.toBBox = .ok v → inter z h = v := by
      intro z v hd e
      have := hi z h
      unfold Event.intersectionArea DocBox.intersectionArea at this
      rw [if_pos ((LawfulCmp.eq_iff _ _).2 hd), e] at this
      exact (Except.ok.inj this).symm
    refine ⟨hx'.2.1, hok.2.1, ratio_mono hR hok.2.1 ?_ (UInt32.le_refl _) (le_refl a) hok.2.2⟩
    rw [key x u hx'.2.2.1 e1, key y v hy'.2.2.1 e2]
    exact huv

/-- C101: a lower threshold of the scorer that divides by the area of the hypothesis gives at least as
many hits, at most as many missed references, and no new false positive. -/
theorem C101_lower_threshold (R : Rnd) (hR : R.Faithful) (S : StdSort) (s s' : DocEventSet Q D UInt32)
    (refs : List (Event Q (DocBox D UInt32))) (hyps : List (ScoredEvent Q (DocBox D UInt32)))
    (a b : ℚ) (hab : a ≤ b) :
    ∃ t ms rep t' ms' rep',
      SimpleMatcher.run (docIndex S Q D UInt32) (iohScorer R a) s refs hyps = .ok (t, ms, rep) ∧
      SimpleMatcher.run (docIndex S Q D UInt32) (iohScorer R b) s' refs hyps = .ok (t', ms', rep') ∧
      hitCount ms' ≤ hitCount ms ∧ missCount ms ≤ missCount ms' ∧
      (ms.filter (fun m => m.ref = none)).Sublist (ms'.filter (fun m => m.ref = none)) := by
  obtain ⟨overl, ok, h1, h2, h3, h4, h5⟩ := ioh_search R S s refs hR
  have hs : ∀ h, (docIndex S Q D UInt32).findOverlapping
      (refs.foldl (docIndex S Q D UInt32).insert ((docIndex S Q D UInt32).clear s')) h = .ok (overl h) := h1
  obtain ⟨en, mi, rep, a1, a2, _, a4⟩ := run_spec (docIndex S Q D UInt32) (iohScorer R a) s overl
    (fun r h => verdict (ok a r h)) refs hyps (fun h _ => h1 h) (fun h _ => h2 h) (fun h _ r _ => h3 a h r)
  obtain ⟨en', mi', rep', b1, b2, _, b4⟩ := run_spec (docIndex S Q D UInt32) (iohScorer R b) s' overl
    (fun r h => verdict (ok b r h)) refs hyps (fun h _ => hs h) (fun h _ => h2 h) (fun h _ r _ => h3 b h r)
  have hhit : hitCount (en' ++ mi'.map Match.makeFalseNegative) ≤
      hitCount (en ++ mi.map Match.makeFalseNegative) := by
    rw [show hitCount (en' ++ mi'.map Match.makeFalseNegative) = hitCount en' from hitCount_missed en' mi' _,
      show hitCount (en ++ mi.map Match.makeFalseNegative) = hitCount en from hitCount_missed en mi _,
      a2.hits, b2.hits, taken_nil]
    refine picked_prefix hyps (fun h _ => filter_prefix _ _ _ (fun r _ hr => ?_) ?_) ∅
    · rw [decide_eq_true_eq, verdict_lt] at hr ⊢
      exact h4 a b h r hab hr
    · simp only [decide_eq_true_eq, verdict_lt]
      exact h5 b h
  refine ⟨_, _, _, _, _, _, a1, b1, hhit, ?_, ?_⟩
  · have c := C14_every_ref_once _ _ _ _ _ _ _ _ a1
    have c' := C14_every_ref_once _ _ _ _ _ _ _ _ b1
    have hp : ((en ++ mi.map (Match.makeFalseNegative (HE := ScoredEvent Q (DocBox D UInt32)))).filterMap
          (fun m => m.ref)).length =
        ((en' ++ mi'.map (Match.makeFalseNegative (HE := ScoredEvent Q (DocBox D UInt32)))).filterMap
          (fun m => m.ref)).length :=
      ((List.perm_ext_iff_of_nodup c.1 c'.1).2 fun r => (c.2.1 r).trans (c'.2.1 r).symm).length_eq
    rw [← hit_miss, ← hit_miss] at hp
    omega
  · obtain ⟨t, ms, rp, c1, c2⟩ := C16_false_positives (docIndex S Q D UInt32) (iohScorer R a) s overl
      (fun r h => verdict (ok a r h)) refs hyps (fun h _ => h1 h) (fun h _ => h2 h)
      (fun h _ r _ => h3 a h r)
    obtain ⟨t', ms', rp', d1, d2⟩ := C16_false_positives (docIndex S Q D UInt32) (iohScorer R b) s' overl
      (fun r h => verdict (ok b r h)) refs hyps (fun h _ => hs h) (fun h _ => h2 h)
      (fun h _ r _ => h3 b h r)
    rw [a1, Except.ok.injEq, Prod.mk.injEq, Prod.mk.injEq] at c1
    rw [b1, Except.ok.injEq, Prod.mk.injEq, Prod.mk.injEq] at d1
    rw [c1.2.1, d1.2.1, c2, d2]
    refine List.Sublist.map _ (List.monotone_filter_right _ fun h hh => ?_)
    rw [decide_eq_true_eq] at hh ⊢
    intro r hr
    have := hh r hr
    by_contra hlt
    rw [not_le, verdict_lt] at hlt
    have := (verdict_lt (ok a r h)).2 (h4 a b h r hab hlt)
    linarith

/-- C101: at the same threshold, what the scorer that divides by the area of the union accepts is
accepted by the one that divides by the area of the hypothesis. -/
theorem C101_union_stricter (R : Rnd) (hR : R.Faithful) (a : ℚ) (r : Event Q (DocBox D UInt32))
    (h : ScoredEvent Q (DocBox D UInt32)) (hr : EdgesOkU r.location.toBBox)
    (hh : EdgesOkU h.base.location.toBBox) (hu : coveredU r h.base < 2 ^ 32)
    (hok : iouScorer R a r h = .ok ⟨0, 0⟩) : iohScorer R a r h = .ok ⟨0, 0⟩ := by
  obtain ⟨i, hi⟩ := inter_ok r h.base
  obtain ⟨u, hu'⟩ := union_ok r h.base
  rw [iou_eq R a r h i u hi hu'] at hok
  rw [ioh_eq R a r h i hi]
  have hok := Except.ok.inj hok
  have hp : r.query = h.base.query ∧ 0 < (h.base.location.w * h.base.location.h).toNat ∧
      ratioAtLeast R i u a = true := by
    refine (verdict_lt _).1 ?_
    rw [hok]
    norm_num
  have := area_val h.base (lt_of_le_of_lt (area_le_covered r h.base) hu)
  have h2 := union_val r h.base hr hh hu u hu'
  have h3 : r.query = h.base.query ∧ 0 < (h.base.location.w * h.base.location.h).toNat ∧
      ratioAtLeast R i (h.base.location.w * h.base.location.h) a = true := by
    refine ⟨hp.1, hp.2.1, ratio_mono hR hp.2.1 (UInt32.le_refl _) ?_ (le_refl a) hp.2.2⟩
    rw [UInt32.le_iff_toNat_le, this, h2]
    exact area_le_covered r h.base
  unfold verdict
  rw [if_pos h3]

end

/-! ## Examples -/

/-- An overlap search with a known result. -/
theorem search_known (S : StdSort) (s : DocEventSet Str Str UInt32)
    (refs : List (Event Str (DocBox Str UInt32))) (h : ScoredEvent Str (DocBox Str UInt32))
    (hr : ∀ r ∈ refs, EdgesOkU r.location.toBBox) (hh : InRangeU h.base)
    (known : List (Event Str (DocBox Str UInt32)))
    (hn : ∀ r ∈ known, r ∈ refs)
    (hm : ∀ r ∈ refs, r ∈ known ↔ r.query = h.base.query ∧ 0 < commonU r h.base)
    (hs : known.Pairwise (fun x y => commonU y h.base < commonU x h.base)) :
    (docIndex S Str Str UInt32).findOverlapping
      (refs.foldl (docIndex S Str Str UInt32).insert ((docIndex S Str Str UInt32).clear s)) h =
      .ok known := by
  obtain ⟨ov, h1, _, h3, _⟩ := box_search S s refs h hr hh
  rw [h1]
  congr 1
  refine eq_of_strict (overlapBefore_irrefl h.base) (overlapBefore_asymm h.base)
    (box_search_order S s refs h hr hh ov h1) (hs.imp fun h => Or.inl h) fun r => ?_
  rw [h3]
  exact ⟨fun ⟨a, b⟩ => (hm r a).2 b, fun a => ⟨hn r a, (hm r (hn r a)).1 a⟩⟩

/-- A run of the matcher whose overlap searches have known results. -/
theorem run_known (S : StdSort) (s : DocEventSet Str Str UInt32)
    (scorer : Event Str (DocBox Str UInt32) → ScoredEvent Str (DocBox Str UInt32) → Cpp MatchError)
    (refs : List (Event Str (DocBox Str UInt32))) (hyps : List (ScoredEvent Str (DocBox Str UInt32)))
    (known : ScoredEvent Str (DocBox Str UInt32) → List (Event Str (DocBox Str UInt32)))
    (hr : ∀ r ∈ refs, EdgesOkU r.location.toBBox)
    (hh : ∀ h ∈ hyps, InRangeU h.base ∧ (∀ r ∈ known h, r ∈ refs) ∧
      (∀ r ∈ refs, r ∈ known h ↔ r.query = h.base.query ∧ 0 < commonU r h.base) ∧
      (known h).Pairwise (fun x y => commonU y h.base < commonU x h.base)) :
    (SimpleMatcher.run (docIndex S Str Str UInt32) scorer s refs hyps).map (·.2) =
      (SimpleMatcher.run ⟨id, fun s _ => s, fun _ h => .ok (known h)⟩ scorer () refs hyps).map (·.2) := by
  have hl := loop_congr (docIndex S Str Str UInt32) ⟨id, fun s _ => s, fun _ h => .ok (known h)⟩ scorer
    (refs.foldl (docIndex S Str Str UInt32).insert ((docIndex S Str Str UInt32).clear s))
    (refs.foldl (fun s _ => s) ()) (StdSet.ofList Cmp.lt refs) hyps
    (fun h hm => search_known S s refs h hr (hh h hm).1 (known h) (hh h hm).2.1 (hh h hm).2.2.1
      (hh h hm).2.2.2)
  unfold SimpleMatcher.run
  simp only [bind, Except.bind, pure, Except.pure, id]
  rw [hl]
  generalize SimpleMatcher.loop _ scorer _ _ hyps = x
  cases x <;> rfl

end Kws

namespace Kws
open Spec

/-- Two references and two hypotheses of one row. -/
def rowRefs : List (Event Str (DocBox Str UInt32)) :=
  [⟨['q'], ⟨⟨1, 0, 8, 1⟩, ['d']⟩⟩, ⟨['q'], ⟨⟨0, 0, 2, 1⟩, ['d']⟩⟩]

def rowHyps : List (ScoredEvent Str (DocBox Str UInt32)) :=
  [⟨⟨['q'], ⟨⟨0, 0, 4, 1⟩, ['d']⟩⟩, .fin 2⟩, ⟨⟨['q'], ⟨⟨2, 0, 7, 1⟩, ['d']⟩⟩, .fin 1⟩]

theorem row_run (S : StdSort) (s : DocEventSet Str Str UInt32)
    (scorer : Event Str (DocBox Str UInt32) → ScoredEvent Str (DocBox Str UInt32) → Cpp MatchError) :
    (SimpleMatcher.run (docIndex S Str Str UInt32) scorer s rowRefs rowHyps).map (·.2) =
      (SimpleMatcher.run ⟨id, fun s _ => s, fun _ h => .ok (if h.base.location.x = 0 then rowRefs
        else rowRefs.take 1)⟩ scorer () rowRefs rowHyps).map (·.2) := by
  refine run_known S s scorer rowRefs rowHyps _ ?_ ?_
  · intro r hr
    simp only [rowRefs, List.mem_cons, List.not_mem_nil, or_false] at hr
    rcases hr with rfl | rfl <;> exact ⟨by decide, by decide⟩
  · intro h hh
    simp only [rowHyps, List.mem_cons, List.not_mem_nil, or_false] at hh
    rcases hh with rfl | rfl
    · exact ⟨⟨⟨by decide, by decide⟩, by decide +kernel⟩, by decide +kernel, by decide +kernel,
        by decide +kernel⟩
    · exact ⟨⟨⟨by decide, by decide⟩, by decide +kernel⟩, by decide +kernel, by decide +kernel,
        by decide +kernel⟩

theorem row_count {α : Type} (f : List (Match (Event Str (DocBox Str UInt32))
      (ScoredEvent Str (DocBox Str UInt32))) → α) (S : StdSort) (s : DocEventSet Str Str UInt32)
    (scorer : Event Str (DocBox Str UInt32) → ScoredEvent Str (DocBox Str UInt32) → Cpp MatchError) :
    (SimpleMatcher.run (docIndex S Str Str UInt32) scorer s rowRefs rowHyps).map (fun x => f x.2.1) =
      (SimpleMatcher.run ⟨id, fun s _ => s, fun _ h => .ok (if h.base.location.x = 0 then rowRefs
        else rowRefs.take 1)⟩ scorer () rowRefs rowHyps).map (fun x => f x.2.1) := by
  have := congrArg (Except.map (fun x => f x.1)) (row_run S s scorer)
  generalize SimpleMatcher.run (docIndex S Str Str UInt32) scorer s rowRefs rowHyps = x at *
  generalize SimpleMatcher.run _ scorer () rowRefs rowHyps = y at *
  cases x <;> cases y <;> exact this

/-- C101: with the scorer that divides by the area of the union, a lower threshold can cost hits: at 1/4
the first hypothesis takes the reference that the second one needs, at 1/2 it takes the other. -/
theorem C101_union_loses (S : StdSort) (s : DocEventSet Str Str UInt32) :
    (SimpleMatcher.run (docIndex S Str Str UInt32) (iouScorer Rnd.exact (1 / 4)) s rowRefs rowHyps).map
        (fun x => hitCount x.2.1) = .ok 1 ∧
    (SimpleMatcher.run (docIndex S Str Str UInt32) (iouScorer Rnd.exact (1 / 2)) s rowRefs rowHyps).map
        (fun x => hitCount x.2.1) = .ok 2 := by
  rw [row_count, row_count]
  exact ⟨by decide +kernel, by decide +kernel⟩

/-- Runs to which the first claim of C101 applies, with the numbers of hits, of missed references and of
matches. -/
example (S : StdSort) (s : DocEventSet Str Str UInt32) :
    let numbers (a : ℚ) := (SimpleMatcher.run (docIndex S Str Str UInt32) (iohScorer Rnd.exact a) s
      rowRefs rowHyps).map (fun x => (hitCount x.2.1, missCount x.2.1, x.2.1.length))
    numbers (1 / 2) = .ok (1, 1, 2) ∧ numbers (4 / 5) = .ok (1, 1, 3) ∧ numbers 2 = .ok (0, 2, 4) := by
  intro numbers
  have key : ∀ a, numbers a = (SimpleMatcher.run _ (iohScorer Rnd.exact a) () rowRefs rowHyps).map
      (fun x => (hitCount x.2.1, missCount x.2.1, x.2.1.length)) :=
    fun a => row_count (fun l => (hitCount l, missCount l, l.length)) S s _
  rw [key, key, key]
  exact ⟨by decide +kernel, by decide +kernel, by decide +kernel⟩

/-- A pair to which the second claim of C101 applies. -/
example : let r : Event Str (DocBox Str UInt32) := ⟨['q'], ⟨⟨0, 0, 2, 1⟩, ['d']⟩⟩
    let h : ScoredEvent Str (DocBox Str UInt32) := ⟨⟨['q'], ⟨⟨0, 0, 4, 1⟩, ['d']⟩⟩, .fin 2⟩
    EdgesOkU r.location.toBBox ∧ EdgesOkU h.base.location.toBBox ∧ coveredU r h.base < 2 ^ 32 ∧
    iouScorer Rnd.exact (1 / 2) r h = .ok ⟨0, 0⟩ :=
  ⟨⟨by decide, by decide⟩, ⟨by decide, by decide⟩, by decide +kernel, by decide +kernel⟩

end Kws

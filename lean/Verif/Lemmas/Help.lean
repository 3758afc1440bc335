import Verif.Lemmas.OutputMain
import Verif.Lemmas.Messages
import Verif.Spec.Help
import Verif.Props.Cmd
import Verif.Props.Numbers
import Verif.Props.Scores

/-!
# Lemmas about the help and the values in it
-/

namespace Kws
open Spec OptVal Parser

theorem nat_denotes (n : ℕ) : Denotes (showNat n) n :=
  ⟨[], false, showNat n, rfl, .none, showNat_numeral n, by simp [showNat_value]⟩

theorem showInt_denotes (z : ℤ) : Denotes (showInt z) z := by
  unfold showInt
  split
  · exact ⟨['-'], true, showNat z.natAbs, rfl, .minus, showNat_numeral _, by
      simp only [showNat_value, if_true]; omega⟩
  · exact ⟨[], false, showNat z.natAbs, rfl, .none, showNat_numeral _, by
      simp only [showNat_value, Bool.false_eq_true, if_false]; omega⟩

theorem showValue_shows (v : OptVal) : ShowsValue v v.showValue := by
  cases v with
  | bool b => cases b <;> rfl
  | int32 z => exact showInt_denotes z
  | size n => exact nat_denotes n
  | double x => exact C74_general x
  | str s => rfl

/-- A value that is shown without loss is read back. -/
theorem shown_read (R : Rnd) (v : OptVal) (s : Str) (h : ShowsValue v s) (hp : Presentable R v) :
    v.parseOpt R s = (true, v) ∧ (v.isBoolean = true → s.head? ≠ some '-') := by
  obtain ⟨h1, h2, h3⟩ := C56_in_range_partial R s
  cases v with
  | bool b =>
    cases b <;> (change s = _ at h; subst h; exact ⟨rfl, by decide⟩)
  | int32 z => exact ⟨h2 z z h hp.1 hp.2, by simp [isBoolean]⟩
  | size n =>
    refine ⟨?_, by simp [isBoolean]⟩
    have : n < 2 ^ 64 := hp
    have := h1 n n h (by positivity) (by exact_mod_cast this)
    simpa using this
  | double x =>
    obtain ⟨q, hq, hn⟩ := h
    obtain ⟨ha, hb⟩ := hp
    have e : R.f64 q = x := hb q (by simpa using hn)
    have := h3 x q hq (by rw [e]; exact ha)
    rw [e] at this
    exact ⟨this, by simp [isBoolean]⟩
  | str t =>
    have hs : s = t := h
    subst hs
    refine ⟨?_, by simp [isBoolean]⟩
    have hz : '\x00' ∉ s := hp
    show parseStr s = _
    unfold parseStr
    have h1 : s.contains '\x00' = false := by simpa using hz
    have h2 : s.takeWhile (· != '\x00') = s := by
      rw [List.takeWhile_eq_self_iff]
      intro c hc
      have : c ≠ '\x00' := fun e => hz (e ▸ hc)
      simpa using this
    rw [h1, h2]
    rfl

/-- The options given with the texts. -/
def stating : List (Str × OptVal) → List Str → List OptItem :=
  List.zipWith fun o s => ⟨"--".toList ++ o.1, some s⟩

theorem stating_ok (R : Rnd) (opts : List (Str × OptVal)) (hn : (opts.map Prod.fst).Nodup)
    (hh : "help".toList ∉ opts.map Prod.fst) (he : [] ∉ opts.map Prod.fst) (os : List (Str × OptVal))
    (texts : List Str) (hsub : ∀ o ∈ os, o ∈ opts)
    (h : List.Forall₂ (fun o s => ShowsValue o.2 s) os texts) (hp : ∀ o ∈ opts, Presentable R o.2)
    (tail : List Str) : ItemsOk R opts (stating os texts) tail := by
  induction h with
  | nil => trivial
  | @cons o s os texts h _ ih =>
    have hm := hsub o (by simp)
    refine ⟨Or.inr ⟨o.1, o.2, ⟨⟨'-', rfl⟩, ?_, ?_⟩, ?_, ?_⟩, ih fun x hx => hsub x (by simp [hx])⟩
    · intro e
      apply he
      have : o.1 = [] := by simpa using e
      rw [← this]
      exact List.mem_map_of_mem hm
    · intro e
      apply hh
      have : o.1 = "help".toList := by simpa using e
      rw [← this]
      exact List.mem_map_of_mem hm
    · exact find?_of_mem opts hn o hm
    · obtain ⟨h1, h2⟩ := shown_read R o.2 s h (hp o hm)
      cases hb : o.2.isBoolean with
      | false => exact Or.inl ⟨rfl, s, rfl, by rw [h1]⟩
      | true => exact Or.inr (Or.inr ⟨rfl, s, rfl, h2 hb, by rw [h1]⟩)

theorem lastText_mem {items : List OptItem} {name t : Str} (h : lastText items name = some t) :
    ∃ it ∈ items, it.word.drop 2 = name ∧ t = it.value.getD [] := by
  unfold lastText at h
  rw [Option.map_eq_some_iff] at h
  obtain ⟨it, h1, h2⟩ := h
  have := List.mem_of_getLast? h1
  rw [List.mem_filter] at this
  exact ⟨it, this.1, by simpa using this.2, h2.symm⟩

theorem stating_after (R : Rnd) (opts os : List (Str × OptVal)) (hn : (opts.map Prod.fst).Nodup)
    (texts : List Str) (hsub : ∀ o ∈ os, o ∈ opts)
    (h : List.Forall₂ (fun o s => ShowsValue o.2 s) os texts) (hp : ∀ o ∈ opts, Presentable R o.2) :
    optsAfter R opts (stating os texts) = opts := by
  have key : ∀ o ∈ opts, valueAfter R o.2 (lastText (stating os texts) o.1) = o.2 := by
    intro o ho
    cases ht : lastText (stating os texts) o.1 with
    | none => rfl
    | some t =>
      obtain ⟨it, hit, hw, rfl⟩ := lastText_mem ht
      obtain ⟨i, hi, e⟩ := List.getElem_of_mem hit
      unfold stating at hi e
      rw [List.getElem_zipWith] at e
      rw [List.length_zipWith] at hi
      have hi1 : i < os.length := by omega
      have hi2 : i < texts.length := by omega
      have hs : ShowsValue os[i].2 texts[i] := by
        rw [List.forall₂_iff_get] at h
        exact h.2 i hi1 hi2
      subst e
      have hname : os[i].1 = o.1 := by simpa using hw
      have heq : os[i] = o := by
        have h1 := find?_of_mem opts hn _ (hsub os[i] (List.getElem_mem _))
        have h2 := find?_of_mem opts hn o ho
        rw [hname, h2] at h1
        exact Prod.ext hname (by injection h1 with h1; exact h1.symm)
      rw [heq] at hs
      show (o.2.parseOpt R texts[i]).2 = o.2
      rw [(shown_read R o.2 _ hs (hp o ho)).1]
  unfold optsAfter
  conv_rhs => rw [← List.map_id opts]
  refine List.map_congr_left fun o ho => ?_
  rw [key o ho]
  rfl

/-- Stating the values of options does not change anything. -/
theorem parse_stating (R : Rnd) (p : Parser) (hp : WellRegistered p) (he : [] ∉ p.opts.map Prod.fst)
    (os : List (Str × OptVal)) (texts : List Str) (hsub : ∀ o ∈ os, o ∈ p.opts)
    (h : List.Forall₂ (fun o s => ShowsValue o.2 s) os texts)
    (hpr : ∀ o ∈ p.opts, Presentable R o.2) (argv : List Str) :
    p.parse R ((stating os texts).flatMap OptItem.render ++ argv) = p.parse R argv := by
  have h1 := parseOptions_items R p.opts hp.1 hp.2 (stating os texts) argv [] false
    (stating_ok R p.opts hp.1 hp.2 he os texts hsub h hpr argv)
  have hno : (stating os texts).any isHelp = false := by
    rw [List.any_eq_false]
    intro it hit
    obtain ⟨i, hi, e⟩ := List.getElem_of_mem hit
    unfold stating at hi e
    rw [List.getElem_zipWith] at e
    rw [List.length_zipWith] at hi
    subst e
    intro hw
    apply hp.2
    have : os[i].1 = "help".toList := by simpa [isHelp] using hw
    rw [← this]
    exact List.mem_map_of_mem (hsub _ (List.getElem_mem _))
  rw [optsAfter_nil, List.nil_append, stating_after R p.opts os hp.1 texts hsub h hpr, hno,
    Bool.or_false] at h1
  unfold Parser.parse
  rw [h1]

/-- The width is that of the longest name. -/
theorem width_ge (t : ParserTexts) (p : Parser) (o : Str × OptVal) (ho : o ∈ p.opts) :
    (t.optText o.1).name.length ≤ t.width p := by
  have mono : ∀ (l : List OptText) (w : ℕ), w ≤ l.foldl (fun w a => max w a.name.length) w := by
    intro l
    induction l with
    | nil => intro w; exact le_rfl
    | cons a l ih => intro w; exact (le_max_left _ _).trans (ih _)
  have mono' : ∀ (l : List (Str × OptVal)) (w : ℕ),
      w ≤ l.foldl (fun w o => max w (t.optText o.1).name.length) w := by
    intro l
    induction l with
    | nil => intro w; exact le_rfl
    | cons a l ih => intro w; exact (le_max_left _ _).trans (ih _)
  have mem : ∀ (l : List (Str × OptVal)) (w : ℕ), o ∈ l → (t.optText o.1).name.length ≤
      l.foldl (fun w o => max w (t.optText o.1).name.length) w := by
    intro l
    induction l with
    | nil => intro w h; cases h
    | cons a l ih =>
      intro w h
      rcases List.mem_cons.1 h with rfl | h
      · exact (le_max_right _ _).trans (mono' l _)
      · exact ih _ h
  unfold ParserTexts.width
  exact (mem p.opts 0 ho).trans ((mono _ _).trans (mono _ _))

/-- The help lists the options. -/
theorem help_lists (t : ParserTexts) (p : Parser) (hn : (p.opts.map Prod.fst).Nodup)
    (hne : p.opts ≠ []) : ListsOptions p.opts (t.help p) := by
  unfold ParserTexts.help
  simp only [if_neg hne]
  suffices h : ∀ pre : Str, ListsOptions p.opts (pre ++ (endl [] ++ endl "Options:".toList ++
      (p.opts.insertionSort (fun a b => a.1 ≤ b.1)).flatMap
        (fun o => endl ("  ".toList ++ (t.optText o.1).optionHelp (t.width p) o.2)))) from h _
  intro pre
  refine ⟨pre, p.opts.insertionSort (fun a b => a.1 ≤ b.1),
    (p.opts.insertionSort (fun a b => a.1 ≤ b.1)).map
      (fun o => endl ("  ".toList ++ (t.optText o.1).optionHelp (t.width p) o.2)), t.width p, ?_,
    List.perm_insertionSort _ _, ?_, ?_⟩
  · rw [List.flatMap_def]
    simp only [List.append_assoc]
    rfl
  · haveI : Std.Total (fun a b : Str × OptVal => a.1 ≤ b.1) := ⟨fun a b => le_total a.1 b.1⟩
    have : IsTrans (Str × OptVal) (fun a b => a.1 ≤ b.1) := ⟨fun a b c => le_trans⟩
    have h1 := List.pairwise_insertionSort (fun a b : Str × OptVal => a.1 ≤ b.1) p.opts
    have h2 : ((p.opts.insertionSort (fun a b => a.1 ≤ b.1)).map Prod.fst).Nodup :=
      ((List.perm_insertionSort _ _).map _).nodup_iff.2 hn
    have h3 : ((p.opts.insertionSort (fun a b => a.1 ≤ b.1)).map Prod.fst).Pairwise (· ≤ ·) :=
      List.pairwise_map.2 h1
    exact (h3.and h2).imp fun h => lt_of_le_of_ne h.1 h.2
  · rw [List.forall₂_map_right_iff, List.forall₂_same]
    intro o ho
    have ho' : o ∈ p.opts := (List.perm_insertionSort _ _).mem_iff.1 ho
    have hw := width_ge t p o ho'
    refine ⟨List.replicate (t.width p - ("--".toList ++ o.1).length) ' ',
      (AMap.find? o.1 t.optHelp).getD [], o.2.typeName, o.2.showValue, ?_, ?_, ?_,
      showValue_shows o.2, ?_⟩
    · intro c hc
      exact List.eq_of_mem_replicate hc
    · have : ("--".toList ++ o.1).length ≤ t.width p := hw
      rw [List.length_append, List.length_replicate]
      omega
    · cases o.2 <;> rfl
    · simp [endl, OptText.optionHelp, padTo, ParserTexts.optText]

end Kws

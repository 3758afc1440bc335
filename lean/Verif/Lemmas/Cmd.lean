import Verif.Spec.CommandLine
import Verif.Lemmas.Stream

/-!
Facts about the command line parser.
-/

namespace Kws
open Spec

/-! ## Maps -/

namespace AMap
variable {κ ν : Type} [DecidableEq κ]

theorem find?_some_mem {k : κ} {v : ν} {m : List (κ × ν)} (h : find? k m = some v) :
    (k, v) ∈ m := by
  induction m with
  | nil => cases h
  | cons a m ih =>
    obtain ⟨k', v'⟩ := a
    rw [find?] at h
    split at h
    · injection h with h
      subst h
      rename_i e
      subst e
      simp
    · exact List.mem_cons_of_mem _ (ih h)

theorem find?_none {k : κ} {m : List (κ × ν)} : find? k m = none ↔ k ∉ m.map Prod.fst := by
  induction m with
  | nil => simp [find?]
  | cons a m ih =>
    obtain ⟨k', v'⟩ := a
    rw [find?]
    split
    · simp_all
    · rename_i hne
      simp [ih, hne]

theorem find?_map {ν' : Type} (f : κ → ν → ν') (k : κ) (m : List (κ × ν)) :
    find? k (m.map fun nv => (nv.1, f nv.1 nv.2)) = (find? k m).map (f k) := by
  induction m with
  | nil => rfl
  | cons a m ih =>
    obtain ⟨k', v'⟩ := a
    simp only [List.map_cons, find?]
    split
    · rename_i e; subst e; rfl
    · exact ih

theorem set_map {k : κ} {m : List (κ × ν)} (f g : κ → ν → ν) (hn : (m.map Prod.fst).Nodup)
    {v : ν} (hv : find? k m = some v) (hg : ∀ k', k' ≠ k → g k' = f k') :
    set k (g k v) (m.map fun nv => (nv.1, f nv.1 nv.2)) =
      m.map fun nv => (nv.1, g nv.1 nv.2) := by
  induction m with
  | nil => cases hv
  | cons a m ih =>
    obtain ⟨k', v'⟩ := a
    simp only [List.map_cons, List.nodup_cons] at hn
    simp only [List.map_cons, set]
    rw [find?] at hv
    split at hv
    · rename_i e
      subst e
      injection hv with hv
      subst hv
      rw [if_pos rfl]
      congr 1
      refine List.map_congr_left fun nv hnv => ?_
      have : nv.1 ≠ k := by
        rintro rfl
        exact hn.1 (List.mem_map_of_mem hnv)
      rw [hg _ this]
    · rename_i hne
      rw [if_neg hne, ih hn.2 hv, hg k' (fun e => hne e.symm)]

theorem find?_append {k : κ} (m m' : List (κ × ν)) :
    find? k (m ++ m') = (find? k m).or (find? k m') := by
  induction m with
  | nil => simp [find?]
  | cons a m ih =>
    obtain ⟨k', v'⟩ := a
    simp only [List.cons_append, find?]
    split
    · rfl
    · exact ih

theorem find?_set (k k' : κ) (v : ν) (m : List (κ × ν)) :
    find? k' (set k v m) = if k' = k then some v else find? k' m := by
  induction m with
  | nil => simp [set, find?]
  | cons a m ih =>
    obtain ⟨k0, v0⟩ := a
    rw [set]
    split
    · rename_i e; subst e
      simp only [find?]
      split <;> rfl
    · rename_i hne
      simp only [find?, ih]
      by_cases h1 : k' = k0
      · subst h1
        rw [if_pos rfl, if_neg (fun e => hne e.symm), if_pos rfl]
      · rw [if_neg h1, if_neg h1]

end AMap

/-! ## Values -/

/-- The same type of variable. -/
def OptVal.SameType : OptVal → OptVal → Prop
  | .bool _, .bool _ => True
  | .int32 _, .int32 _ => True
  | .size _, .size _ => True
  | .double _, .double _ => True
  | .str _, .str _ => True
  | _, _ => False

namespace OptVal

theorem getUnsigned_some (max : Nat) (s : Str) :
    ∃ n, ((IStream.ofStr s).getUnsigned max false).2 = some n := by
  unfold IStream.getUnsigned IStream.sentry IStream.ofStr IStream.good
  simp only [Bool.not_false, Bool.and_self, if_true, Bool.false_eq_true, if_false]
  split
  · exact ⟨_, rfl⟩
  · split
    · exact ⟨_, rfl⟩
    · exact ⟨_, rfl⟩

theorem getSigned_some (max : Nat) (s : Str) :
    ∃ n, ((IStream.ofStr s).getSigned max false).2 = some n := by
  unfold IStream.getSigned IStream.sentry IStream.ofStr IStream.good
  simp only [Bool.not_false, Bool.and_self, if_true, Bool.false_eq_true, if_false]
  (repeat' split) <;> exact ⟨_, rfl⟩

theorem getFloat_some (rd : ℚ → ℚ) (max : ℚ) (s : Str) :
    ∃ n, ((IStream.ofStr s).getFloat rd max false).2 = some n := by
  unfold IStream.getFloat IStream.sentry IStream.ofStr IStream.good
  simp only [Bool.not_false, Bool.and_self, if_true, Bool.false_eq_true, if_false]
  split
  · exact ⟨_, rfl⟩
  · split
    · exact ⟨_, rfl⟩
    · split
      · exact ⟨_, rfl⟩
      · exact ⟨_, rfl⟩

theorem parseOther_sameType (R : Rnd) (v : OptVal) (s : Str) : SameType v (parseOther R v s).2 := by
  cases v <;> simp [parseOther, parseStr, SameType]

theorem parseOpt_sameType (R : Rnd) (v : OptVal) (s : Str) : SameType v (parseOpt R v s).2 := by
  cases v with
  | bool b =>
    simp only [parseOpt, parseOptBool]
    split
    · trivial
    · split <;> trivial
  | _ => exact parseOther_sameType R _ s

/-- The outcome depends on the type of the variable only, not on its value. -/
theorem parseOpt_type (R : Rnd) {v v' : OptVal} (h : SameType v v') (s : Str) :
    (parseOpt R v s).1 = (parseOpt R v' s).1 ∧
      ((parseOpt R v s).1 = true → (parseOpt R v s).2 = (parseOpt R v' s).2) := by
  cases v <;> cases v' <;> first | exact False.elim h | skip
  · simp only [parseOpt, parseOptBool]
    split
    · exact ⟨rfl, fun _ => rfl⟩
    · split
      · exact ⟨rfl, fun _ => rfl⟩
      · exact ⟨rfl, fun h => absurd h (by simp)⟩
  · obtain ⟨n, hn⟩ := getSigned_some (2 ^ 31 - 1) s
    simp only [parseOpt, parseOther, hn]
    exact ⟨trivial, fun _ => rfl⟩
  · obtain ⟨n, hn⟩ := getUnsigned_some (2 ^ 64 - 1) s
    simp only [parseOpt, parseOther, hn]
    exact ⟨trivial, fun _ => rfl⟩
  · obtain ⟨n, hn⟩ := getFloat_some R.f64 dblMax s
    simp only [parseOpt, parseOther, hn]
    exact ⟨trivial, fun _ => rfl⟩
  · exact ⟨rfl, fun _ => rfl⟩

theorem sameType_boolean {v v' : OptVal} (h : SameType v v') : v.isBoolean = v'.isBoolean := by
  cases v <;> cases v' <;> first | exact False.elim h | rfl

theorem SameType.refl (v : OptVal) : SameType v v := by cases v <;> trivial

theorem valueAfter_sameType (R : Rnd) (v : OptVal) (t : Option Str) :
    SameType v (valueAfter R v t) := by
  cases t with
  | none => exact .refl v
  | some s => exact parseOpt_sameType R v s

end OptVal

/-! ## Options -/

namespace Parser
open OptVal

theorem startsDash_iff (w : Str) : startsDash w = true ↔ w.head? = some '-' := by
  cases w <;> simp [startsDash]

theorem optionLike_iff (w : Str) :
    (decide (w.length < 2) || !startsDash w) = true ↔ ¬ OptionLike w := by
  unfold OptionLike
  rw [← startsDash_iff]
  simp only [Bool.or_eq_true, decide_eq_true_eq, Bool.not_eq_true']
  by_cases h : startsDash w = true <;> simp [h]

theorem Spec.Selects.like {w name : Str} (h : Selects w name) : OptionLike w ∧ w.drop 2 = name := by
  obtain ⟨⟨c, rfl⟩, _⟩ := h
  exact ⟨⟨by simp, rfl⟩, rfl⟩

theorem selects_of {w : Str} (h : OptionLike w) (h1 : w ≠ "--".toList) (h2 : w ≠ "--help".toList) :
    Selects w (w.drop 2) := by
  refine ⟨?_, h1, h2⟩
  obtain ⟨hl, hh⟩ := h
  match w, hl, hh with
  | a :: b :: r, _, hh =>
    simp only [List.head?_cons, Option.some.injEq] at hh
    subst hh
    exact ⟨b, rfl⟩

theorem lastText_snoc (done : List OptItem) (it : OptItem) (name : Str) :
    lastText (done ++ [it]) name =
      if it.word.drop 2 = name then some (it.value.getD []) else lastText done name := by
  unfold lastText
  rw [List.filter_append]
  by_cases h : it.word.drop 2 = name
  · simp [h]
  · simp [h]

theorem optsAfter_skip (R : Rnd) (opts : List (Str × OptVal)) (done : List OptItem) (it : OptItem)
    (h : it.word.drop 2 ∉ opts.map Prod.fst) :
    optsAfter R opts (done ++ [it]) = optsAfter R opts done := by
  unfold optsAfter
  refine List.map_congr_left fun nv hnv => ?_
  have : it.word.drop 2 ≠ nv.1 := fun e => h (e ▸ List.mem_map_of_mem hnv)
  rw [lastText_snoc, if_neg this]

theorem optsAfter_set (R : Rnd) (opts : List (Str × OptVal)) (hn : (opts.map Prod.fst).Nodup)
    (done : List OptItem) (it : OptItem) (v : OptVal)
    (hv : AMap.find? (it.word.drop 2) opts = some v)
    (hok : (v.parseOpt R (it.value.getD [])).1 = true) :
    AMap.set (it.word.drop 2)
      ((valueAfter R v (lastText done (it.word.drop 2))).parseOpt R (it.value.getD [])).2
      (optsAfter R opts done) = optsAfter R opts (done ++ [it]) := by
  have ht := parseOpt_type R (valueAfter_sameType R v (lastText done (it.word.drop 2)))
    (it.value.getD [])
  rw [← ht.2 hok]
  unfold optsAfter
  have := AMap.set_map (k := it.word.drop 2) (m := opts)
    (fun n x => valueAfter R x (lastText done n))
    (fun n x => valueAfter R x (lastText (done ++ [it]) n)) hn hv
    (fun k' hk => by
      funext x
      rw [lastText_snoc, if_neg (fun e => hk e.symm)])
  rw [← this, lastText_snoc, if_pos rfl]
  rfl

theorem find?_optsAfter (R : Rnd) (opts : List (Str × OptVal)) (done : List OptItem) (name : Str) :
    AMap.find? name (optsAfter R opts done) =
      (AMap.find? name opts).map fun v => valueAfter R v (lastText done name) :=
  AMap.find?_map (fun n x => valueAfter R x (lastText done n)) name opts

def isHelp (it : OptItem) : Bool := it.word == "--help".toList

/-- One item is consumed. -/
theorem parseOptions_item (R : Rnd) (opts : List (Str × OptVal)) (hn : (opts.map Prod.fst).Nodup)
    (hh : "help".toList ∉ opts.map Prod.fst) (done : List OptItem) (help : Bool) (it : OptItem)
    (next : List Str) (h : ItemOk R opts it next) :
    parseOptions R (optsAfter R opts done) help (it.render ++ next) =
      parseOptions R (optsAfter R opts (done ++ [it])) (help || isHelp it) next := by
  obtain ⟨word, value⟩ := it
  rcases h with ⟨hw, hv⟩ | ⟨name, v, hsel, hfind, h⟩
  · simp only at hw hv
    subst hw; subst hv
    rw [optsAfter_skip R opts done _ (by simpa using hh)]
    have : isHelp ⟨"--help".toList, none⟩ = true := by decide
    rw [this, Bool.or_true]
    show parseOptions R _ help ("--help".toList :: next) = _
    rw [parseOptions, if_neg (by decide), if_neg (by decide), if_pos rfl]
  · obtain ⟨hlike, hdrop⟩ := Spec.Selects.like hsel
    simp only at hlike hdrop
    subst hdrop
    have hhelp : isHelp ⟨word, value⟩ = false := by
      simpa [isHelp] using hsel.2.2
    rw [hhelp, Bool.or_false]
    have hfind' := find?_optsAfter R opts done (word.drop 2)
    rw [hfind, Option.map_some] at hfind'
    have hty := valueAfter_sameType R v (lastText done (word.drop 2))
    have hb := sameType_boolean hty
    have h1 : ¬ (decide (word.length < 2) || !startsDash word) = true := by
      rw [optionLike_iff]; exact not_not.2 hlike
    rcases h with ⟨hbool, s, hs, hok⟩ | ⟨hbool, hs, hnext⟩ | ⟨hbool, s, hs, hnd, hok⟩
    · simp only at hs
      subst hs
      show parseOptions R _ help (word :: s :: next) = _
      rw [parseOptions, if_neg h1, if_neg hsel.2.1, if_neg hsel.2.2]
      simp only [hfind', ← hb, hbool, Bool.false_eq_true, if_false]
      have ht := parseOpt_type R hty s
      rw [← ht.1, hok, if_pos rfl]
      rw [← optsAfter_set R opts hn done ⟨word, some s⟩ v hfind hok]
      rfl
    · simp only at hs
      subst hs
      have hok : (v.parseOpt R []).1 = true := by
        cases v <;> first | (cases hbool; done) | rfl
      have ht := parseOpt_type R hty []
      have hset := optsAfter_set R opts hn done ⟨word, none⟩ v hfind hok
      show parseOptions R _ help (word :: next) = _
      rw [parseOptions, if_neg h1, if_neg hsel.2.1, if_neg hsel.2.2]
      simp only [hfind', ← hb, hbool, if_true]
      cases next with
      | nil =>
        simp only
        rw [← ht.1, hok, if_pos rfl]
        simp only [Option.getD_none] at hset
        rw [hset, parseOptions]
      | cons w next =>
        have hd := (startsDash_iff w).2 (hnext w rfl)
        simp only [hd, if_true]
        rw [← ht.1, hok, if_pos rfl]
        simp only [Option.getD_none] at hset
        rw [hset]
    · simp only at hs
      subst hs
      have hd : startsDash s = false := by
        rw [← Bool.not_eq_true, startsDash_iff]; exact hnd
      show parseOptions R _ help (word :: s :: next) = _
      rw [parseOptions, if_neg h1, if_neg hsel.2.1, if_neg hsel.2.2]
      simp only [hfind', ← hb, hbool, if_true, hd, Bool.false_eq_true, if_false]
      have ht := parseOpt_type R hty s
      rw [← ht.1, hok, if_pos rfl]
      rw [← optsAfter_set R opts hn done ⟨word, some s⟩ v hfind hok]
      rfl

/-- All items are consumed. -/
theorem parseOptions_items (R : Rnd) (opts : List (Str × OptVal)) (hn : (opts.map Prod.fst).Nodup)
    (hh : "help".toList ∉ opts.map Prod.fst) (items : List OptItem) (tail : List Str) :
    ∀ (done : List OptItem) (help : Bool), ItemsOk R opts items tail →
    parseOptions R (optsAfter R opts done) help (items.flatMap OptItem.render ++ tail) =
      parseOptions R (optsAfter R opts (done ++ items)) (help || items.any isHelp) tail := by
  induction items with
  | nil => intro done help _; simp
  | cons it items ih =>
    rintro done help ⟨h1, h2⟩
    rw [List.flatMap_cons, List.append_assoc,
      parseOptions_item R opts hn hh done help it _ h1, ih _ _ h2]
    simp [Bool.or_assoc]

theorem optsAfter_nil (R : Rnd) (opts : List (Str × OptVal)) : optsAfter R opts [] = opts := by
  unfold optsAfter lastText valueAfter
  simp

/-- Where the option part ends. -/
theorem parseOptions_tail (R : Rnd) (opts : List (Str × OptVal)) (help : Bool) {tail pos : List Str}
    (h : TailOk tail pos) : parseOptions R opts help tail = .done opts help pos := by
  rcases h with rfl | ⟨rfl, h⟩
  · rw [parseOptions, if_neg (by decide), if_pos rfl]
  · cases tail with
    | nil => rw [parseOptions]
    | cons w tail =>
      rw [parseOptions, if_pos ((optionLike_iff w).2 (h w rfl))]

/-- A successful option part consists of items. -/
theorem parseOptions_done (R : Rnd) (opts : List (Str × OptVal)) (hn : (opts.map Prod.fst).Nodup)
    (hh : "help".toList ∉ opts.map Prod.fst) (n : Nat) :
    ∀ (argv : List Str) (done : List OptItem) (help help' : Bool) (o : List (Str × OptVal))
      (pos : List Str), argv.length ≤ n →
      parseOptions R (optsAfter R opts done) help argv = .done o help' pos →
      ∃ items tail, argv = items.flatMap OptItem.render ++ tail ∧ ItemsOk R opts items tail ∧
        TailOk tail pos := by
  induction n with
  | zero =>
    intro argv done help help' o pos hlen h
    have : argv = [] := List.length_eq_zero_iff.1 (Nat.le_zero.1 hlen)
    subst this
    rw [parseOptions] at h
    injection h with _ _ h
    subst h
    exact ⟨[], [], rfl, trivial, Or.inr ⟨rfl, by simp⟩⟩
  | succ n ih =>
    intro argv done help help' o pos hlen h
    -- a further item in front
    have step : ∀ (it : OptItem) (next : List Str), argv = it.render ++ next →
        ItemOk R opts it next → ∃ items tail, argv = items.flatMap OptItem.render ++ tail ∧
          ItemsOk R opts items tail ∧ TailOk tail pos := by
      intro it next e hit
      rw [e, parseOptions_item R opts hn hh done help it next hit] at h
      have hl : next.length ≤ n := by
        rw [e] at hlen
        simp only [OptItem.render, List.cons_append, List.length_cons, List.length_append] at hlen
        omega
      obtain ⟨items, tail, e2, h1, h2⟩ := ih _ _ _ _ _ _ hl h
      refine ⟨it :: items, tail, ?_, ⟨?_, h1⟩, h2⟩
      · rw [List.flatMap_cons, List.append_assoc, ← e2, e]
      · rw [← e2]; exact hit
    cases argv with
    | nil =>
      rw [parseOptions] at h
      injection h with _ _ h
      subst h
      exact ⟨[], [], rfl, trivial, Or.inr ⟨rfl, by simp⟩⟩
    | cons arg argv =>
      have h0 := h
      rw [parseOptions] at h
      split at h
      · rename_i hc
        injection h with _ _ h
        subst h
        refine ⟨[], arg :: argv, rfl, trivial, Or.inr ⟨rfl, fun w hw => ?_⟩⟩
        simp only [List.head?_cons, Option.some.injEq] at hw
        subst hw
        exact (optionLike_iff arg).1 hc
      · rename_i hc
        have hlike : OptionLike arg := by
          by_contra hno
          exact hc ((optionLike_iff arg).2 hno)
        split at h
        · rename_i hdd
          injection h with _ _ h
          subst h; subst hdd
          exact ⟨[], "--".toList :: argv, rfl, trivial, Or.inl rfl⟩
        · rename_i hdd
          split at h
          · rename_i hhelp
            subst hhelp
            exact step ⟨"--help".toList, none⟩ argv rfl (Or.inl ⟨rfl, rfl⟩)
          · rename_i hhelp
            have hsel := selects_of hlike hdd hhelp
            rw [find?_optsAfter] at h
            cases hf : AMap.find? (arg.drop 2) opts with
            | none =>
              rw [hf] at h
              cases h
            | some v =>
              rw [hf] at h
              simp only [Option.map_some] at h
              have hty := valueAfter_sameType R v (lastText done (arg.drop 2))
              have hb := sameType_boolean hty
              rw [← hb] at h
              by_cases hbool : v.isBoolean = true
              · rw [if_pos hbool] at h
                cases argv with
                | nil =>
                  exact step ⟨arg, none⟩ [] rfl (Or.inr ⟨_, v, hsel, hf, Or.inr (Or.inl
                    ⟨hbool, rfl, by simp⟩)⟩)
                | cons w argv =>
                  simp only at h
                  by_cases hd : startsDash w = true
                  · refine step ⟨arg, none⟩ (w :: argv) rfl (Or.inr ⟨_, v, hsel, hf, Or.inr (Or.inl
                      ⟨hbool, rfl, ?_⟩)⟩)
                    intro x hx
                    simp only [List.head?_cons, Option.some.injEq] at hx
                    subst hx
                    exact (startsDash_iff w).1 hd
                  · rw [if_neg hd] at h
                    have ht := parseOpt_type R hty w
                    have hok : (v.parseOpt R w).1 = true := by
                      by_contra hno
                      rw [← ht.1, if_neg hno] at h
                      cases h
                    exact step ⟨arg, some w⟩ argv rfl (Or.inr ⟨_, v, hsel, hf, Or.inr (Or.inr
                      ⟨hbool, w, rfl, fun e => hd ((startsDash_iff w).2 e), hok⟩)⟩)
              · rw [if_neg hbool] at h
                rw [Bool.not_eq_true] at hbool
                cases argv with
                | nil => cases h
                | cons w argv =>
                  simp only at h
                  have ht := parseOpt_type R hty w
                  have hok : (v.parseOpt R w).1 = true := by
                    by_contra hno
                    rw [← ht.1, if_neg hno] at h
                    cases h
                  exact step ⟨arg, some w⟩ argv rfl (Or.inr ⟨_, v, hsel, hf, Or.inl
                    ⟨hbool, w, rfl, hok⟩⟩)

/-! ## Positional arguments -/

theorem parseArgs_ok (R : Rnd) (vs : List OptVal) (ws : List Str) (h : ArgsOk R vs ws) :
    parseArgs R vs ws = (true, assigned R vs ws, min vs.length ws.length, ws.drop vs.length) := by
  induction vs generalizing ws with
  | nil => cases ws <;> simp [parseArgs, assigned]
  | cons v vs ih =>
    cases ws with
    | nil => simp [parseArgs, assigned]
    | cons w ws =>
      have h1 : (v.parseArg R w).1 = true := h (v, w) (by simp)
      have h2 : ArgsOk R vs ws := fun p hp => h p (by simp [hp])
      rw [parseArgs]
      simp only [h1, if_true, ih ws h2]
      simp [assigned]

theorem parseArgs_bad (R : Rnd) (vs : List OptVal) (ws : List Str) (h : ¬ ArgsOk R vs ws) :
    (parseArgs R vs ws).1 = false := by
  induction vs generalizing ws with
  | nil => exact absurd (fun p hp => by simp at hp) h
  | cons v vs ih =>
    cases ws with
    | nil => exact absurd (fun p hp => by simp at hp) h
    | cons w ws =>
      rw [parseArgs]
      by_cases h1 : (v.parseArg R w).1 = true
      · simp only [h1, if_true]
        refine ih ws fun h2 => h fun p hp => ?_
        simp only [List.zip_cons_cons, List.mem_cons] at hp
        rcases hp with rfl | hp
        · exact h1
        · exact h2 p hp
      · rw [Bool.not_eq_true] at h1
        simp only [h1, Bool.false_eq_true, if_false]

end Parser

end Kws

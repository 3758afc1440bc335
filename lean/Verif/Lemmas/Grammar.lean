import Verif.Spec.Grammar
import Verif.Lemmas.Reader

/-!
Extraction follows the grammars.
-/

namespace Kws
open Spec IStream

theorem numeral_append (a b : Str) : numeral (a ++ b) = numeral a * 10 ^ b.length + numeral b := by
  induction a with
  | nil => simp [numeral]
  | cons c a ih =>
    simp only [List.cons_append, numeral, ih, List.length_append, pow_add]
    ring

theorem natVal_eq (ds : Str) : natVal ds = numeral ds := by
  induction ds using List.reverseRecOn with
  | nil => rfl
  | append_singleton ds c ih =>
    have : natVal (ds ++ [c]) = 10 * natVal ds + (c.toNat - '0'.toNat) := by
      unfold natVal
      rw [List.foldl_append]
      rfl
    rw [this, ih, numeral_append]
    have h48 : '0'.toNat = 48 := by decide
    simp [numeral, h48]
    omega

theorem sign_scan {sg : Str} {neg : Bool} (h : Sign sg neg) (x : Str)
    (hx : ∀ c, x.head? = some c → c ≠ '+' ∧ c ≠ '-') : scanSign (sg ++ x) = (neg, x) := by
  cases h with
  | none =>
    cases x with
    | nil => rfl
    | cons c x =>
      obtain ⟨h1, h2⟩ := hx c rfl
      simp only [List.nil_append]
      unfold scanSign
      split
      · rename_i e; exact absurd (List.cons.inj e).1 h2
      · rename_i e; exact absurd (List.cons.inj e).1 h1
      · rfl
  | plus => rfl
  | minus => rfl

theorem scan_sign (x : Str) : ∃ sg, Sign sg (scanSign x).1 ∧ x = sg ++ (scanSign x).2 := by
  unfold scanSign
  split
  · exact ⟨_, .minus, rfl⟩
  · exact ⟨_, .plus, rfl⟩
  · exact ⟨_, .none, rfl⟩

theorem digit_not_sign {c : Char} (h : isDigit c = true) : c ≠ '+' ∧ c ≠ '-' := by
  constructor <;> rintro rfl <;> exact absurd h (by decide)

theorem isDigit_head {ds r : Str} (hne : ds ≠ []) (h : ∀ c ∈ ds, isDigit c = true) {c : Char}
    (hc : (ds ++ r).head? = some c) : isDigit c = true := by
  cases ds with
  | nil => exact absurd rfl hne
  | cons d ds =>
    simp only [List.cons_append, List.head?_cons, Option.some.injEq] at hc
    subst hc
    exact h d (by simp)

theorem takeWhile_digits {ds r : Str} (h : ∀ c ∈ ds, isDigit c = true) (hr : NumeralEnded r) :
    (ds ++ r).takeWhile isDigit = ds ∧ (ds ++ r).dropWhile isDigit = r := by
  induction ds with
  | nil =>
    cases r with
    | nil => simp
    | cons c r => simp [hr c rfl]
  | cons c ds ih =>
    have := ih fun d hd => h d (by simp [hd])
    simp [h c (by simp), this.1, this.2]

theorem numeralEnded_dropWhile (x : Str) : NumeralEnded (x.dropWhile isDigit) := by
  intro c hc
  have := List.head?_dropWhile_not isDigit x
  rw [hc] at this
  simpa using this

theorem Spec.Denotes.scan {w : Str} {z : Int} (h : Denotes w z) {r : Str} (hr : NumeralEnded r) :
    ((scanSign (w ++ r)).2.takeWhile isDigit) ≠ [] ∧
      (scanSign (w ++ r)).2.dropWhile isDigit = r ∧
      z = if (scanSign (w ++ r)).1 then -(natVal ((scanSign (w ++ r)).2.takeWhile isDigit) : Int)
        else natVal ((scanSign (w ++ r)).2.takeWhile isDigit) := by
  obtain ⟨sg, neg, ds, rfl, hs, ⟨hne, hds⟩, hz⟩ := h
  rw [List.append_assoc, sign_scan hs (ds ++ r) fun c hc => digit_not_sign (isDigit_head hne hds hc)]
  have t := takeWhile_digits hds hr
  simp only [t.1, t.2]
  exact ⟨hne, trivial, by rw [natVal_eq]; exact hz⟩

theorem scan_denotes (x : Str) (h : (scanSign x).2.takeWhile isDigit ≠ []) : ∃ w,
    x = w ++ (scanSign x).2.dropWhile isDigit ∧
    Denotes w (if (scanSign x).1 then -(natVal ((scanSign x).2.takeWhile isDigit) : Int)
        else natVal ((scanSign x).2.takeWhile isDigit)) := by
  obtain ⟨sg, hs, e⟩ := scan_sign x
  refine ⟨sg ++ (scanSign x).2.takeWhile isDigit, ?_, sg, _, _, rfl, hs,
    ⟨h, fun c hc => mem_takeWhile_imp hc⟩, by rw [natVal_eq]⟩
  rw [List.append_assoc, List.takeWhile_append_dropWhile]
  exact e

/-- The extractor succeeds exactly on the texts of the grammar. -/
structure Parses {α : Type} (ex : Extractor α) (G : Str → α → Str → Prop) : Prop where
  ok : ∀ s, Ready s → (ex s).1.fail = false →
    ∃ v r', ex s = (⟨r', r'.isEmpty, false⟩, some v)
  iff : ∀ s, Ready s → ∀ v r', ex s = (⟨r', r'.isEmpty, false⟩, some v) ↔ G s.rest v r'

theorem Parses.pair {α β γ : Type} {a : Extractor α} {b : Extractor β} {f : α → β → γ}
    {A : Str → α → Str → Prop} {B : Str → β → Str → Prop} (ha : Parses a A) (hb : Parses b B)
    (wb : WellBehaved b) : Parses (Extractor.pair f a b)
      (fun r c r'' => ∃ x y r', c = f x y ∧ A r x r' ∧ B r' y r'') where
  ok := by
    intro s hs hf
    have hf' : (b (a s).1).1.fail = false := hf
    obtain ⟨x, r1, h1⟩ := ha.ok s hs (wb.value _ hf').1
    rw [h1] at hf'
    obtain ⟨y, r2, h2⟩ := hb.ok _ (ready_rest r1) hf'
    exact ⟨f x y, r2, by unfold Extractor.pair; rw [h1]; simp only [h2]⟩
  iff := by
    intro s hs v r'
    constructor
    · intro h
      have hf : (b (a s).1).1.fail = false := by
        have : (Extractor.pair f a b s).1.fail = false := by rw [h]
        exact this
      obtain ⟨x, r1, h1⟩ := ha.ok s hs (wb.value _ hf).1
      rw [h1] at hf
      obtain ⟨y, r2, h2⟩ := hb.ok _ (ready_rest r1) hf
      unfold Extractor.pair at h
      rw [h1] at h
      simp only [h2] at h
      injection h with e1 e2
      injection e1 with e3 _ _
      injection e2 with e4
      subst e3
      exact ⟨x, y, r1, e4.symm, (ha.iff s hs x r1).1 h1, (hb.iff _ (ready_rest r1) y r2).1 h2⟩
    · rintro ⟨x, y, r1, rfl, hA, hB⟩
      have h1 := (ha.iff s hs x r1).2 hA
      have h2 := (hb.iff _ (ready_rest r1) y r').2 hB
      unfold Extractor.pair
      rw [h1]
      simp only [h2]

theorem Parses.congr {α : Type} {ex : Extractor α} {G G' : Str → α → Str → Prop}
    (h : Parses ex G) (e : ∀ r v r', G r v r' ↔ G' r v r') : Parses ex G' :=
  ⟨h.ok, fun s hs v r' => (h.iff s hs v r').trans (e _ _ _)⟩

theorem not_blank_word {sp w r : Str} (hw : Word w) : ¬ Blank (sp ++ (w ++ r)) := by
  intro h
  obtain ⟨hne, hns⟩ := hw
  cases w with
  | nil => exact hne rfl
  | cons c w =>
    have := h c (by simp)
    rw [hns c (by simp)] at this
    cases this

theorem getString_parses : Parses getString TextField where
  ok := by
    intro s hs hf
    cases h : words s.rest with
    | nil =>
      rw [getString_none h] at hf
      cases hf
    | cons w ws =>
      obtain ⟨r, e, _⟩ := getString_word hs h
      exact ⟨w, r, e⟩
  iff := by
    intro s hs v r'
    constructor
    · intro h
      cases hw : words s.rest with
      | nil =>
        have := getString_none hw
        rw [h] at this
        cases this
      | cons w ws =>
        obtain ⟨sp, r, e, hsp, hword, hst, e2⟩ := words_cons hw
        have h2 : s.getString = (⟨r, r.isEmpty, false⟩, some w) := by
          unfold getString
          rw [sentry_word hs e hsp hword]
          have t := takeWhile_word (fun c => !isSpace c) w r (fun c hc => by simp [hword.2 c hc])
            notSpace_stop hst
          simp only [Bool.false_eq_true, if_false, t.1, t.2]
          have : List.isEmpty w = false := by
            cases w with
            | nil => exact absurd rfl hword.1
            | cons _ _ => rfl
          rw [this]
        rw [h2] at h
        injection h with e1 e2
        injection e1 with e3 _ _
        injection e2 with e4
        subst e3
        subst e4
        exact ⟨sp, e, hsp, hword, hst⟩
    · rintro ⟨sp, e, hsp, hword, hst⟩
      unfold getString
      rw [sentry_word hs e hsp hword]
      have t := takeWhile_word (fun c => !isSpace c) v r' (fun c hc => by simp [hword.2 c hc])
        notSpace_stop hst
      simp only [Bool.false_eq_true, if_false, t.1, t.2]
      have : List.isEmpty v = false := by
        cases v with
        | nil => exact absurd rfl hword.1
        | cons _ _ => rfl
      rw [this]

theorem sentry_cases {s : IStream} (hs : Ready s) : (s.sentry true).fail = true ∨
    ∃ sp t, s.rest = sp ++ t ∧ Blank sp ∧ t = s.rest.dropWhile isSpace ∧ t ≠ [] ∧
      s.sentry true = ⟨t, false, false⟩ := by
  by_cases hb : Blank s.rest
  · exact Or.inl (sentry_blank hb)
  · right
    obtain ⟨sp, w, r', e, hsp, hw, _, _⟩ := words_split hb
    refine ⟨sp, w ++ r', e, hsp, ?_, ?_, sentry_word hs e hsp hw⟩
    · rw [e, dropWhile_space_word hsp hw]
    · intro h
      exact hw.1 (List.append_eq_nil_iff.1 h).1

theorem sentry_at {s : IStream} (hs : Ready s) {sp t : Str} {c : Char} (h : s.rest = sp ++ c :: t)
    (hsp : Blank sp) (hc : isSpace c = false) : s.sentry true = ⟨c :: t, false, false⟩ := by
  have := sentry_word hs (w := [c]) (r := t) h hsp ⟨by simp, by simpa using hc⟩
  simpa using this

theorem sign_not_space {sg : Str} {neg : Bool} (h : Sign sg neg) : ∀ c ∈ sg, isSpace c = false := by
  cases h <;> simp <;> decide

theorem Spec.Denotes.word {w : Str} {z : Int} (h : Denotes w z) : Word w := by
  obtain ⟨sg, neg, ds, rfl, hs, ⟨hne, hds⟩, _⟩ := h
  refine ⟨fun e => hne (List.append_eq_nil_iff.1 e).2, fun c hc => ?_⟩
  rcases List.mem_append.1 hc with hc | hc
  · exact sign_not_space hs c hc
  · exact isDigit_not_space (hds c hc)

theorem denotes_abs (neg : Bool) (n : Nat) : |if neg then -(n : Int) else n| = n := by
  cases neg <;> simp

theorem u32_value (neg : Bool) (n : Nat) (hn : n ≤ 2 ^ 32 - 1) (v : UInt32) :
    UInt32.ofNat (if neg then (2 ^ 32 - 1 + 1 - n) % (2 ^ 32 - 1 + 1) else n) = v ↔
      (v.toNat : Int) = (if neg then -(n : Int) else n) % 2 ^ 32 := by
  rw [← UInt32.toNat_inj, UInt32.toNat_ofNat']
  cases neg <;> simp <;> omega

theorem extractU32_eq {s : IStream} (hs : Ready s) : (extractU32 s).1.fail = true ∧ Blank s.rest ∨
    ∃ sp t, s.rest = sp ++ t ∧ Blank sp ∧ t ≠ [] ∧ t = s.rest.dropWhile isSpace ∧
      extractU32 s =
      (let ds := (scanSign t).2.takeWhile isDigit
       let y := (scanSign t).2.dropWhile isDigit
       if ds.isEmpty then (⟨y, y.isEmpty, true⟩, some 0)
       else if natVal ds > 2 ^ 32 - 1 then (⟨y, y.isEmpty, true⟩, some (UInt32.ofNat (2 ^ 32 - 1)))
       else (⟨y, y.isEmpty, false⟩, some (UInt32.ofNat
          (if (scanSign t).1 then (2 ^ 32 - 1 + 1 - natVal ds) % (2 ^ 32 - 1 + 1)
            else natVal ds)))) := by
  by_cases hb : Blank s.rest
  · left
    refine ⟨?_, hb⟩
    exact getUnsigned_none (words_nil.2 hb)
  · right
    rcases sentry_cases hs with h | ⟨sp, t, e, hsp, ht, hne, h⟩
    · exfalso
      obtain ⟨sp, w, r', e, hsp, hw, _, _⟩ := words_split hb
      rw [sentry_word hs e hsp hw] at h
      cases h
    · refine ⟨sp, t, e, hsp, hne, ht, ?_⟩
      unfold extractU32 getUnsigned
      rw [h]
      simp only [Bool.false_eq_true, if_false]
      split
      · rfl
      · split <;> rfl

theorem extractU32_parses : Parses extractU32 CoordField where
  ok := by
    intro s hs hf
    rcases extractU32_eq hs with ⟨h, _⟩ | ⟨sp, t, e, hsp, hne, ht, h⟩
    · rw [h] at hf; cases hf
    · rw [h] at hf ⊢
      simp only at hf ⊢
      split at hf
      · cases hf
      · rw [if_neg (by assumption)]
        split at hf
        · cases hf
        · rw [if_neg (by assumption)]
          exact ⟨_, _, rfl⟩
  iff := by
    intro s hs v r'
    rcases extractU32_eq hs with ⟨h, hb⟩ | ⟨sp, t, e, hsp, hne, ht, h⟩
    · constructor
      · intro h'
        rw [h'] at h; cases h
      · rintro ⟨sp, w, z, e, hsp, hd, _⟩
        rw [e] at hb
        exact absurd hb (not_blank_word hd.word)
    · rw [h]
      simp only
      constructor
      · intro h'
        split at h'
        · injection h' with h' _; injection h' with _ _ h'; cases h'
        · split at h'
          · injection h' with h' _; injection h' with _ _ h'; cases h'
          · rename_i hne hle
            injection h' with e1 e2
            injection e1 with e3 _ _
            injection e2 with e4
            obtain ⟨w, hw, hden⟩ := scan_denotes t (by simpa using hne)
            refine ⟨sp, w, _, ?_, hsp, hden, ?_, ?_, ?_⟩
            · rw [← e3, ← hw]; exact e
            · rw [← e3]; exact numeralEnded_dropWhile _
            · rw [denotes_abs]
              have := Nat.not_lt.1 hle
              have h2 : (natVal ((scanSign t).2.takeWhile isDigit) : Int) ≤ ((2 ^ 32 - 1 : Nat) : Int) :=
                Int.ofNat_le.2 this
              simpa using h2
            · exact (u32_value _ _ (Nat.not_lt.1 hle) v).1 e4
      · rintro ⟨sp', w, z, e', hsp', hd, hend, habs, hv⟩
        have ht' : t = w ++ r' := by
          rw [ht, e', dropWhile_space_word hsp' hd.word]
        obtain ⟨h1, h2, h3⟩ := hd.scan hend
        rw [← ht'] at h1 h2 h3
        rw [if_neg (by simpa using h1)]
        rw [h3, denotes_abs] at habs
        have hle : natVal ((scanSign t).2.takeWhile isDigit) ≤ 2 ^ 32 - 1 := by
          have : (natVal ((scanSign t).2.takeWhile isDigit) : Int) ≤ ((2 ^ 32 - 1 : Nat) : Int) := by
            simpa using habs
          exact Int.ofNat_le.1 this
        rw [if_neg (Nat.not_lt.2 hle), h2]
        rw [h3] at hv
        rw [(u32_value _ _ hle v).2 hv]

/-! ## Floating-point texts -/

theorem pow_sub_eq (k : Int) (n : Nat) : (10 : ℚ) ^ (k - n) = 10 ^ k / 10 ^ n := by
  rw [zpow_sub₀ (by norm_num), zpow_natCast]

theorem exp_value (en : Bool) (m : ℚ) (n e : Nat) :
    (if en = true then m / 10 ^ n / 10 ^ e else m / 10 ^ n * 10 ^ e) =
      m * 10 ^ ((if en = true then -(e : Int) else e) - n) := by
  rw [pow_sub_eq]
  cases en
  · simp only [Bool.false_eq_true, if_false, zpow_natCast]
    ring
  · simp only [if_true, zpow_neg, zpow_natCast]
    field_simp

theorem fracPart_spec (z : Str) : ∃ frac, z = frac ++ (fracPart z).2 ∧
    (∀ c ∈ (fracPart z).1, isDigit c = true) ∧
    ((frac = [] ∧ (fracPart z).1 = []) ∨ frac = '.' :: (fracPart z).1) := by
  unfold fracPart
  split
  · rename_i r'
    refine ⟨'.' :: r'.takeWhile isDigit, ?_, fun c hc => mem_takeWhile_imp hc, Or.inr rfl⟩
    simp only [List.cons_append, List.takeWhile_append_dropWhile]
  · exact ⟨[], rfl, by simp, Or.inl ⟨rfl, rfl⟩⟩

theorem scanFloat_denotes {w : Str} {q : ℚ} (h : DenotesReal w q) :
    (scanFloat w).2 = [] ∧ (scanFloat w).1.value? = some q := by
  obtain ⟨sg, neg, int, frac, f, ex, k, rfl, hs, hint, hf, hfrac, hne, hex, hq⟩ := h
  have he0 : ∀ c, ex.head? = some c → c = 'e' ∨ c = 'E' := by
    intro c hc
    rcases hex with ⟨rfl, _⟩ | ⟨e, w', rfl, he, _⟩
    · simp at hc
    · simp only [List.head?_cons, Option.some.injEq] at hc
      subst hc; exact he
  have hexnum : NumeralEnded ex := by
    intro c hc
    rcases he0 c hc with rfl | rfl <;> decide
  have hfe : NumeralEnded (frac ++ ex) := by
    rcases hfrac with ⟨rfl, _⟩ | rfl
    · simpa using hexnum
    · intro c hc
      simp only [List.cons_append, List.head?_cons, Option.some.injEq] at hc
      subst hc; decide
  have hsgn : ∀ c, (int ++ (frac ++ ex)).head? = some c → c ≠ '+' ∧ c ≠ '-' := by
    intro c hc
    by_cases hi : int = []
    · subst hi
      have hfne : f ≠ [] := by simpa using hne
      rcases hfrac with ⟨_, rfl⟩ | rfl
      · exact absurd rfl hfne
      · simp only [List.nil_append, List.cons_append, List.head?_cons, Option.some.injEq] at hc
        subst hc; decide
    · exact digit_not_sign (isDigit_head hi hint hc)
  have t := takeWhile_digits hint hfe
  have hfp : fracPart (frac ++ ex) = (f, ex) := by
    rcases hfrac with ⟨rfl, rfl⟩ | rfl
    · simp only [List.nil_append]
      unfold fracPart
      split
      · rename_i r'
        rcases he0 '.' (by simp) with h | h <;> exact absurd h (by decide)
      · rfl
    · have t2 := takeWhile_digits hf hexnum
      simp only [List.cons_append, fracPart, t2.1, t2.2]
  rw [scanFloat_eq, sign_scan hs _ hsgn]
  simp only [t.1, t.2, hfp]
  have hb : (List.isEmpty int && List.isEmpty f) = false := by
    cases int with
    | nil => cases f with
      | nil => exact absurd rfl hne
      | cons _ _ => rfl
    | cons _ _ => rfl
  rw [hb]
  simp only [Bool.false_eq_true, if_false]
  have hm : (if neg = true then -(natVal (int ++ f) : ℚ) else natVal (int ++ f)) =
      (if neg then -1 else 1) * (numeral (int ++ f) : ℚ) := by
    rw [natVal_eq]; cases neg <;> simp
  rcases hex with ⟨rfl, rfl⟩ | ⟨e, w', rfl, he, hd⟩
  · refine ⟨rfl, ?_⟩
    unfold FloatText.value?
    simp only [expPart, hb, Bool.false_eq_true, if_false, hm]
    rw [hq, pow_sub_eq, zpow_zero]
    congr 1
    ring
  · have he' : (e == 'e' || e == 'E') = true := by
      rcases he with rfl | rfl <;> decide
    have hnil : NumeralEnded [] := by intro c hc; simp at hc
    obtain ⟨h1, h2, h3⟩ := hd.scan hnil
    rw [List.append_nil] at h1 h2 h3
    simp only [expPart, he', if_true, h2]
    refine ⟨trivial, ?_⟩
    unfold FloatText.value?
    have h1' : List.isEmpty ((scanSign w').2.takeWhile isDigit) = false := by
      simpa using h1
    simp only [hb, h1', Bool.false_eq_true, if_false, hm]
    rw [hq, h3, exp_value]

theorem scan_float {w : Str} {q : ℚ} (h2 : (scanFloat w).2 = [])
    (h1 : (scanFloat w).1.value? = some q) : DenotesReal w q := by
  rw [scanFloat_eq] at h1 h2
  simp only at h1 h2
  obtain ⟨sg, hs, e⟩ := scan_sign w
  set y := (scanSign w).2 with hy
  have ey := List.takeWhile_append_dropWhile (p := isDigit) (l := y)
  have hint : ∀ c ∈ y.takeWhile isDigit, isDigit c = true := fun c hc => mem_takeWhile_imp hc
  set int := y.takeWhile isDigit
  set z := y.dropWhile isDigit
  obtain ⟨frac, ez, hf, hfrac⟩ := fracPart_spec z
  set f := (fracPart z).1
  set ex := (fracPart z).2
  have hw : w = sg ++ (int ++ (frac ++ ex)) := by rw [← ez, ey]; exact e
  split at h1
  · rename_i hb
    unfold FloatText.value? at h1
    simp only [hb, if_true] at h1
    cases h1
  · rename_i hb
    rw [if_neg hb] at h2
    rw [Bool.not_eq_true] at hb
    have hne : int ++ f ≠ [] := by
      intro h
      obtain ⟨hi, hf0⟩ := List.append_eq_nil_iff.1 h
      rw [hi, hf0] at hb
      exact absurd hb (by decide)
    unfold FloatText.value? at h1
    simp only [hb, Bool.false_eq_true, if_false] at h1
    have hm : (if (scanSign w).1 = true then -(natVal (int ++ f) : ℚ) else natVal (int ++ f)) =
        (if (scanSign w).1 then -1 else 1) * (numeral (int ++ f) : ℚ) := by
      rw [natVal_eq]; cases (scanSign w).1 <;> simp
    rw [hm] at h1
    cases hex : ex with
    | nil =>
      rw [hex] at h1 hw
      simp only [expPart, Option.some.injEq] at h1
      refine ⟨sg, _, int, frac, f, [], 0, hw, hs, hint, hf, hfrac, hne, Or.inl ⟨rfl, rfl⟩, ?_⟩
      rw [← h1, pow_sub_eq, zpow_zero]
      ring
    | cons c w' =>
      rw [hex] at h1 h2 hw
      by_cases hc : (c == 'e' || c == 'E') = true
      · simp only [expPart, hc, if_true] at h1 h2
        split at h1
        · cases h1
        · rename_i hds
          obtain ⟨w'', ew, hden⟩ := scan_denotes w' (by simpa using hds)
          rw [h2, List.append_nil] at ew
          rw [← ew] at hden
          refine ⟨sg, _, int, frac, f, _, _, hw, hs, hint, hf, hfrac, hne,
            Or.inr ⟨c, w', rfl, by simpa using hc, hden⟩, ?_⟩
          simp only [Option.some.injEq] at h1
          rw [← h1, exp_value]
      · simp only [expPart, hc] at h2
        cases h2

theorem Spec.DenotesReal.word {w : Str} {q : ℚ} (h : DenotesReal w q) : Word w := by
  obtain ⟨sg, neg, int, frac, f, ex, k, rfl, hs, hint, hf, hfrac, hne, hex, hq⟩ := h
  constructor
  · intro e
    obtain ⟨_, e⟩ := List.append_eq_nil_iff.1 e
    obtain ⟨e1, e⟩ := List.append_eq_nil_iff.1 e
    obtain ⟨e2, e⟩ := List.append_eq_nil_iff.1 e
    subst e1; subst e2
    rcases hfrac with ⟨_, rfl⟩ | h
    · exact hne rfl
    · cases h
  · intro c hc
    simp only [List.mem_append] at hc
    rcases hc with hc | hc | hc | hc
    · exact sign_not_space hs c hc
    · exact isDigit_not_space (hint c hc)
    · rcases hfrac with ⟨rfl, _⟩ | rfl
      · simp at hc
      · rcases List.mem_cons.1 hc with rfl | hc
        · decide
        · exact isDigit_not_space (hf c hc)
    · rcases hex with ⟨rfl, _⟩ | ⟨e, w', rfl, he, hd⟩
      · simp at hc
      · rcases List.mem_cons.1 hc with rfl | hc
        · rcases he with rfl | rfl <;> decide
        · exact hd.word.2 c hc

theorem scanSign_suffix (x : Str) : (scanSign x).2 <:+ x := by
  obtain ⟨sg, _, e⟩ := scan_sign x
  exact ⟨sg, e.symm⟩

theorem scanFloat_suffix (w : Str) : (scanFloat w).2 <:+ w := by
  have h1 : (fracPart ((scanSign w).2.dropWhile isDigit)).2 <:+ w := by
    obtain ⟨fr, e, _⟩ := fracPart_spec ((scanSign w).2.dropWhile isDigit)
    have h : (fracPart ((scanSign w).2.dropWhile isDigit)).2 <:+ (scanSign w).2.dropWhile isDigit := ⟨fr, e.symm⟩
    exact (h.trans (List.dropWhile_suffix _)).trans (scanSign_suffix w)
  rw [scanFloat_eq]
  simp only
  split
  · exact h1
  · refine List.IsSuffix.trans ?_ h1
    generalize (fracPart ((scanSign w).2.dropWhile isDigit)).2 = x
    unfold expPart
    split
    · exact List.suffix_refl _
    · split
      · exact ((List.dropWhile_suffix _).trans (scanSign_suffix _)).trans (List.suffix_cons _ _)
      · exact List.suffix_refl _

/-! ## Whole lines -/

/-- As `Parses`, for the last field of a line. -/
structure ParsesEnd {α : Type} (ex : Extractor α) (G : Str → α → Str → Prop) : Prop where
  ok : ∀ s, Ready s → (ex s).1.fail = false →
    ∃ v r', ex s = (⟨r', r'.isEmpty, false⟩, some v)
  iff : ∀ s, Ready s → ∀ v r', Blank r' →
    (ex s = (⟨r', r'.isEmpty, false⟩, some v) ↔ G s.rest v r')

theorem Parses.toEnd {α : Type} {ex : Extractor α} {G : Str → α → Str → Prop} (h : Parses ex G) :
    ParsesEnd ex G := ⟨h.ok, fun s hs v r' _ => h.iff s hs v r'⟩

theorem ParsesEnd.pair {α β γ : Type} {a : Extractor α} {b : Extractor β} {f : α → β → γ}
    {A : Str → α → Str → Prop} {B : Str → β → Str → Prop} (ha : Parses a A) (hb : ParsesEnd b B)
    (wb : WellBehaved b) : ParsesEnd (Extractor.pair f a b)
      (fun r c r'' => ∃ x y r', c = f x y ∧ A r x r' ∧ B r' y r'') where
  ok := by
    intro s hs hf
    have hf' : (b (a s).1).1.fail = false := hf
    obtain ⟨x, r1, h1⟩ := ha.ok s hs (wb.value _ hf').1
    rw [h1] at hf'
    obtain ⟨y, r2, h2⟩ := hb.ok _ (ready_rest r1) hf'
    exact ⟨f x y, r2, by unfold Extractor.pair; rw [h1]; simp only [h2]⟩
  iff := by
    intro s hs v r' hbl
    constructor
    · intro h
      have hf : (b (a s).1).1.fail = false := by
        have : (Extractor.pair f a b s).1.fail = false := by rw [h]
        exact this
      obtain ⟨x, r1, h1⟩ := ha.ok s hs (wb.value _ hf).1
      rw [h1] at hf
      obtain ⟨y, r2, h2⟩ := hb.ok _ (ready_rest r1) hf
      unfold Extractor.pair at h
      rw [h1] at h
      simp only [h2] at h
      injection h with e1 e2
      injection e1 with e3 _ _
      injection e2 with e4
      subst e3
      exact ⟨x, y, r1, e4.symm, (ha.iff s hs x r1).1 h1, (hb.iff _ (ready_rest r1) y r2 hbl).1 h2⟩
    · rintro ⟨x, y, r1, rfl, hA, hB⟩
      have h1 := (ha.iff s hs x r1).2 hA
      have h2 := (hb.iff _ (ready_rest r1) y r' hbl).2 hB
      unfold Extractor.pair
      rw [h1]
      simp only [h2]

theorem ParsesEnd.congr {α : Type} {ex : Extractor α} {G G' : Str → α → Str → Prop}
    (h : ParsesEnd ex G) (e : ∀ r v r', G r v r' ↔ G' r v r') : ParsesEnd ex G' :=
  ⟨h.ok, fun s hs v r' hb => (h.iff s hs v r' hb).trans (e _ _ _)⟩

theorem extractScore_parses (R : Rnd) : ParsesEnd (extractScore R) (ScoreField R) where
  ok := by
    intro s hs hf
    have hf' : (s.getFloat R.f32 fltMax true).1.fail = false := hf
    cases hw : words s.rest with
    | nil =>
      rw [getFloat_none hw] at hf'
      cases hf'
    | cons w ws =>
      obtain ⟨r, _, _, e⟩ := getFloat_word (rd := R.f32) (max := fltMax) hs hw
      unfold extractScore
      rw [e] at hf' ⊢
      simp only at hf' ⊢
      cases hv : (scanFloat w).1.value? with
      | none => rw [hv] at hf'; cases hf'
      | some q =>
        rw [hv] at hf'
        simp only at hf' ⊢
        split at hf'
        · cases hf'
        · rw [if_neg (by assumption)]
          split at hf'
          · cases hf'
          · rw [if_neg (by assumption)]
            exact ⟨_, _, rfl⟩
  iff := by
    intro s hs v r' hbl
    constructor
    · intro h
      cases hw : words s.rest with
      | nil =>
        have : (extractScore R s).1.fail = true := getFloat_none hw
        rw [h] at this
        cases this
      | cons w ws =>
        obtain ⟨sp, r, er, hsp, hword, hst, _⟩ := words_cons hw
        unfold extractScore getFloat at h
        rw [sentry_word hs er hsp hword] at h
        simp only [Bool.false_eq_true, if_false, scanFloat_stop w r hst] at h
        cases hv : (scanFloat w).1.value? with
        | none =>
          rw [hv] at h
          injection h with h _; injection h with _ _ h; cases h
        | some q =>
          rw [hv] at h
          simp only at h
          split at h
          · injection h with h _; injection h with _ _ h; cases h
          · split at h
            · injection h with h _; injection h with _ _ h; cases h
            · rename_i h1 h2
              injection h with e1 e2
              injection e1 with e3 _ _
              simp only [Option.map_some, Option.some.injEq] at e2
              rw [← e3] at hbl
              have hnil : (scanFloat w).2 = [] := by
                have hb1 := (Blank.append.1 hbl).1
                have hsub : ∀ c ∈ (scanFloat w).2, isSpace c = false := by
                  intro c hc
                  refine hword.2 c ?_
                  have hsuf := scanFloat_suffix w
                  exact hsuf.subset hc
                cases hn : (scanFloat w).2 with
                | nil => rfl
                | cons c t =>
                  have := hb1 c (by rw [hn]; simp)
                  rw [hsub c (by rw [hn]; simp)] at this
                  cases this
              rw [hnil, List.nil_append] at e3 hbl
              subst e3
              refine ⟨sp, w, q, er, hsp, scan_float hnil hv, hbl, ?_, e2.symm⟩
              exact abs_le.2 ⟨not_lt.1 h2, not_lt.1 h1⟩
    · rintro ⟨sp, w, q, er, hsp, hden, hb, habs, rfl⟩
      obtain ⟨h1, h2⟩ := scanFloat_denotes hden
      unfold extractScore getFloat
      rw [sentry_word hs er hsp hden.word]
      simp only [Bool.false_eq_true, if_false, scanFloat_stop w r' hb.stop, h1, h2,
        List.nil_append]
      obtain ⟨h3, h4⟩ := abs_le.1 habs
      rw [if_neg (not_lt.2 h4), if_neg (not_lt.2 h3)]
      rfl

theorem extractBox_parses : Parses extractBox BoxText := by
  refine (((extractU32_parses.pair extractU32_parses extractU32_wb).pair extractU32_parses
    extractU32_wb).pair extractU32_parses extractU32_wb).congr ?_
  intro r v r'
  constructor
  · rintro ⟨_, h, r3, rfl, ⟨_, w, r2, rfl, ⟨x, y, r1, rfl, h1, h2⟩, h3⟩, h4⟩
    exact ⟨r1, r2, r3, h1, h2, h3, h4⟩
  · rintro ⟨r1, r2, r3, h1, h2, h3, h4⟩
    exact ⟨_, _, r3, rfl, ⟨_, _, r2, rfl, ⟨_, _, r1, rfl, h1, h2⟩, h3⟩, h4⟩

theorem extractBoxEvent_parses : Parses extractBoxEvent BoxEventText := by
  refine (getString_parses.pair (getString_parses.pair extractBox_parses extractBox_wb)
    (IStream.getString_wb.pair _ extractBox_wb)).congr ?_
  intro r v r'
  constructor
  · rintro ⟨q, _, r1, rfl, h1, ⟨d, b, r2, rfl, h2, h3⟩⟩
    exact ⟨r1, r2, h1, h2, h3⟩
  · rintro ⟨r1, r2, h1, h2, h3⟩
    exact ⟨_, _, r1, rfl, h1, _, _, r2, rfl, h2, h3⟩

theorem extractStrEvent_parses : Parses extractStrEvent StrEventText := by
  refine (getString_parses.pair getString_parses IStream.getString_wb).congr ?_
  intro r v r'
  constructor
  · rintro ⟨q, l, r1, rfl, h1, h2⟩
    exact ⟨r1, h1, h2⟩
  · rintro ⟨r1, h1, h2⟩
    exact ⟨_, _, r1, rfl, h1, h2⟩

theorem extractScored_parses (R : Rnd) {L : Type} {ex : Extractor (Event Str L)}
    {G : Str → Event Str L → Str → Prop} (h : Parses ex G) :
    ParsesEnd (extractScored R ex) (ScoredText R G) := by
  refine (ParsesEnd.pair h (extractScore_parses R) (extractScore_wb R)).congr ?_
  intro r v r'
  constructor
  · rintro ⟨e, s, r1, rfl, h1, h2⟩
    exact ⟨r1, h1, h2⟩
  · rintro ⟨r1, h1, h2⟩
    exact ⟨_, _, r1, rfl, h1, h2⟩

section
variable {R : Rnd} {E : Type} {ex : Extractor E} {G : Str → E → Str → Prop}

theorem Spec.Format.wb (h : Format R ex G) : WellBehaved ex := by
  cases h with
  | boxRefs => exact extractBoxEvent_wb
  | boxHyps => exact extractScored_wb R extractBoxEvent_wb
  | strRefs => exact extractStrEvent_wb
  | strHyps => exact extractScored_wb R extractStrEvent_wb

theorem Spec.Format.parses (h : Format R ex G) : ParsesEnd ex G := by
  cases h with
  | boxRefs => exact extractBoxEvent_parses.toEnd
  | boxHyps => exact extractScored_parses R extractBoxEvent_parses
  | strRefs => exact extractStrEvent_parses.toEnd
  | strHyps => exact extractScored_parses R extractStrEvent_parses

theorem textField_lead {l w r' : Str} :
    TextField (l.dropWhile isSpace) w r' ↔ TextField l w r' := by
  constructor
  · rintro ⟨sp, e, hsp, hw, he⟩
    refine ⟨l.takeWhile isSpace ++ sp, ?_, ?_, hw, he⟩
    · rw [List.append_assoc, ← e, List.takeWhile_append_dropWhile]
    · exact Blank.append.2 ⟨fun c hc => mem_takeWhile_imp hc, hsp⟩
  · rintro ⟨sp, rfl, hsp, hw, he⟩
    exact ⟨[], by rw [dropWhile_space_word hsp hw]; rfl, blank_nil, hw, he⟩

theorem Spec.Format.lead (h : Format R ex G) (l : Str) (e : E) (r : Str) :
    G (l.dropWhile isSpace) e r ↔ G l e r := by
  cases h with
  | boxRefs => simp only [BoxEventText, textField_lead]
  | boxHyps => simp only [ScoredText, BoxEventText, textField_lead]
  | strRefs => simp only [StrEventText, textField_lead]
  | strHyps => simp only [ScoredText, StrEventText, textField_lead]

/-- What the reader makes of a line. -/
theorem Spec.Format.readLine_event (h : Format R ex G) (l : Str) (e : E) :
    readLine ex l = .event e ↔ ¬ Ignored l ∧ IsEvent G l e := by
  constructor
  · intro hr
    have hn : ¬ Ignored l := by
      intro hi
      rw [readLine_ignored ex l hi] at hr
      cases hr
    refine ⟨hn, ?_⟩
    rcases readLine_wb h.wb l hn with ⟨e', h1, h2, h3, h4⟩ | ⟨h1, _⟩
    · rw [hr] at h1
      injection h1 with h1
      subst h1
      obtain ⟨v, r', hv⟩ := h.parses.ok _ (ready_start _) h3
      rw [hv] at h2 h4
      injection h2 with h2
      subst h2
      exact ⟨r', (h.lead l v r').1 ((h.parses.iff _ (ready_start _) v r' h4).1 hv), h4⟩
    · rw [hr] at h1
      cases h1
  · rintro ⟨hn, r', hG, hb⟩
    have hv := (h.parses.iff ⟨l.dropWhile isSpace, false, false⟩ (ready_start _) e r' hb).2
      ((h.lead l e r').2 hG)
    rcases readLine_wb h.wb l hn with ⟨e', h1, h2, h3, h4⟩ | ⟨h1, h2⟩
    · rw [hv] at h2
      injection h2 with h2
      rw [h1, h2]
    · rw [hv] at h2
      rcases h2 with h2 | h2
      · cases h2
      · exact absurd hb h2

theorem Spec.Format.readLine_bad (h : Format R ex G) (l : Str) :
    readLine ex l = .bad ↔ ¬ Ignored l ∧ ¬ ∃ e, IsEvent G l e := by
  constructor
  · intro hr
    have hn : ¬ Ignored l := by
      intro hi
      rw [readLine_ignored ex l hi] at hr
      cases hr
    refine ⟨hn, ?_⟩
    rintro ⟨e, he⟩
    rw [(h.readLine_event l e).2 ⟨hn, he⟩] at hr
    cases hr
  · rintro ⟨hn, he⟩
    rcases readLine_wb h.wb l hn with ⟨e, h1, _⟩ | ⟨h1, _⟩
    · exact absurd ⟨e, ((h.readLine_event l e).1 h1).2⟩ he
    · exact h1

end

end Kws

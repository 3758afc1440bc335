import Verif.Lemmas.Tactics
import Verif.Model.Ieee

namespace Kws.Ieee

theorem rne_cases (x : ℚ) : rne x = ⌊x⌋ ∨ rne x = ⌊x⌋ + 1 := by
  unfold rne; split_ifs <;> simp

theorem rne_mono {x y : ℚ} (h : x ≤ y) : rne x ≤ rne y := by
  have hf : ⌊x⌋ ≤ ⌊y⌋ := Int.floor_le_floor h
  rcases lt_or_eq_of_le hf with hlt | heq
  · rcases rne_cases x with hx | hx <;> rcases rne_cases y with hy | hy <;> rw [hx, hy] <;> omega
  · unfold rne
    rw [← heq]
    have hq : (⌊x⌋ : ℚ) = ⌊y⌋ := by rw [heq]
    split_ifs <;> first | omega | (exfalso; linarith)

theorem rne_int (n : ℤ) : rne (n : ℚ) = n := by
  unfold rne
  simp

theorem rne_close (x : ℚ) : |(rne x : ℚ) - x| ≤ 1 / 2 := by
  have h1 := Int.floor_le x
  have h2 := Int.lt_floor_add_one x
  unfold rne
  rw [abs_le]
  split_ifs <;> push_cast <;> constructor <;> linarith

theorem two_pos (z : ℤ) : (0 : ℚ) < 2 ^ z := zpow_pos (by norm_num) z

theorem log_le {x : ℚ} (hx : 0 < x) : (2 : ℚ) ^ Int.log 2 x ≤ x := by
  have := Int.zpow_log_le_self (b := 2) (by norm_num) hx
  exact_mod_cast this

theorem lt_log (x : ℚ) : x < (2 : ℚ) ^ (Int.log 2 x + 1) := by
  have := Int.lt_zpow_succ_log_self (b := 2) (by norm_num) x
  exact_mod_cast this

theorem two_zpow_le {a b : ℤ} (h : a ≤ b) : (2 : ℚ) ^ a ≤ 2 ^ b :=
  zpow_le_zpow_right₀ (by norm_num) h

theorem roundPos_nonneg (p : ℕ) (emin : ℤ) {x : ℚ} (hx : 0 < x) : 0 ≤ roundPos p emin x := by
  unfold roundPos
  refine mul_nonneg ?_ (two_pos _).le
  have : rne ((0 : ℤ) : ℚ) ≤ rne (x / 2 ^ quantum p emin x) :=
    rne_mono (by push_cast; exact (div_pos hx (two_pos _)).le)
  rw [rne_int] at this
  exact_mod_cast this

/-- A multiple of `2^q` that bounds `x` also bounds its rounding with quantum `q`. -/
theorem rne_le_of (x : ℚ) (q z : ℤ) (h : x ≤ 2 ^ z) (hq : q ≤ z) :
    (rne (x / 2 ^ q) : ℚ) * 2 ^ q ≤ 2 ^ z := by
  obtain ⟨n, rfl⟩ : ∃ n : ℕ, z = q + n := ⟨(z - q).toNat, by omega⟩
  have h2 : (2 : ℚ) ^ (q + (n : ℤ)) = ((2 ^ n : ℤ) : ℚ) * 2 ^ q := by
    rw [zpow_add₀ (by norm_num)]; push_cast; rw [zpow_natCast]; ring
  rw [h2] at h ⊢
  refine mul_le_mul_of_nonneg_right ?_ (two_pos _).le
  have := rne_mono (show x / 2 ^ q ≤ ((2 ^ n : ℤ) : ℚ) from by
    rw [div_le_iff₀ (two_pos q)]; exact h)
  rw [rne_int] at this
  exact_mod_cast this

theorem le_rne_of (x : ℚ) (q z : ℤ) (h : 2 ^ z ≤ x) (hq : q ≤ z) :
    (2 : ℚ) ^ z ≤ (rne (x / 2 ^ q) : ℚ) * 2 ^ q := by
  obtain ⟨n, rfl⟩ : ∃ n : ℕ, z = q + n := ⟨(z - q).toNat, by omega⟩
  have h2 : (2 : ℚ) ^ (q + (n : ℤ)) = ((2 ^ n : ℤ) : ℚ) * 2 ^ q := by
    rw [zpow_add₀ (by norm_num)]; push_cast; rw [zpow_natCast]; ring
  rw [h2] at h ⊢
  refine mul_le_mul_of_nonneg_right ?_ (two_pos _).le
  have := rne_mono (show ((2 ^ n : ℤ) : ℚ) ≤ x / 2 ^ q from by
    rw [le_div_iff₀ (two_pos q)]; exact h)
  rw [rne_int] at this
  exact_mod_cast this

theorem roundPos_mono (p : ℕ) (emin : ℤ) (hp : 1 ≤ p) {x y : ℚ} (hx : 0 < x) (h : x ≤ y) :
    roundPos p emin x ≤ roundPos p emin y := by
  have hy : 0 < y := lt_of_lt_of_le hx h
  have hlog : Int.log 2 x ≤ Int.log 2 y := Int.log_mono_right hx h
  have hq : quantum p emin x ≤ quantum p emin y := by unfold quantum; omega
  rcases lt_or_eq_of_le hq with hlt | heq
  · have h1 : Int.log 2 x + 1 ≤ Int.log 2 y := by unfold quantum at hlt; omega
    have h2 : quantum p emin y ≤ Int.log 2 y := by
      unfold quantum at *
      have : (1 : ℤ) ≤ p := by exact_mod_cast hp
      omega
    have hx' : x ≤ 2 ^ Int.log 2 y := (lt_log x).le.trans (two_zpow_le h1)
    exact (rne_le_of x _ _ hx' (hq.trans h2)).trans (le_rne_of y _ _ (log_le hy) h2)
  · unfold roundPos
    rw [heq]
    refine mul_le_mul_of_nonneg_right ?_ (two_pos _).le
    exact_mod_cast rne_mono (div_le_div_of_nonneg_right h (two_pos _).le)

theorem round_mono (p : ℕ) (emin : ℤ) (hp : 1 ≤ p) {x y : ℚ} (h : x ≤ y) :
    round p emin x ≤ round p emin y := by
  unfold round
  by_cases hx : 0 < x
  · rw [if_pos hx, if_pos (lt_of_lt_of_le hx h)]
    exact roundPos_mono p emin hp hx h
  · rw [if_neg hx]
    by_cases hx' : x < 0
    · rw [if_pos hx']
      have h1 : -roundPos p emin (-x) ≤ 0 := by
        have := roundPos_nonneg p emin (x := -x) (by linarith)
        linarith
      by_cases hy : 0 < y
      · rw [if_pos hy]
        exact h1.trans (roundPos_nonneg p emin hy)
      · rw [if_neg hy]
        by_cases hy' : y < 0
        · rw [if_pos hy']
          have := roundPos_mono p emin hp (x := -y) (y := -x) (by linarith) (by linarith)
          linarith
        · rw [if_neg hy']; exact h1
    · rw [if_neg hx']
      have hx0 : x = 0 := le_antisymm (not_lt.1 hx) (not_lt.1 hx')
      subst hx0
      by_cases hy : 0 < y
      · rw [if_pos hy]; exact roundPos_nonneg p emin hy
      · rw [if_neg hy, if_neg (not_lt.2 h)]

theorem roundPos_exact (p : ℕ) (emin : ℤ) (m : ℕ) (z : ℤ) (hm : 0 < m) (hmp : m < 2 ^ p)
    (hz : emin ≤ z) : roundPos p emin (m * 2 ^ z) = m * 2 ^ z := by
  have hx : (0 : ℚ) < m * 2 ^ z := mul_pos (by exact_mod_cast hm) (two_pos z)
  have hlt : (2 : ℚ) ^ Int.log 2 ((m : ℚ) * 2 ^ z) < 2 ^ ((p : ℤ) + z) := by
    refine lt_of_le_of_lt (log_le hx) ?_
    rw [zpow_add₀ (by norm_num), zpow_natCast]
    exact mul_lt_mul_of_pos_right (by exact_mod_cast hmp) (two_pos z)
  have hlog : Int.log 2 ((m : ℚ) * 2 ^ z) < p + z :=
    (zpow_lt_zpow_iff_right₀ (by norm_num)).1 hlt
  have hq : quantum p emin ((m : ℚ) * 2 ^ z) ≤ z := by unfold quantum; omega
  unfold roundPos
  obtain ⟨n, hn⟩ : ∃ n : ℕ, z = quantum p emin ((m : ℚ) * 2 ^ z) + n :=
    ⟨(z - quantum p emin ((m : ℚ) * 2 ^ z)).toNat, by omega⟩
  set q := quantum p emin ((m : ℚ) * 2 ^ z) with hqdef
  have hz2 : (2 : ℚ) ^ z = 2 ^ q * 2 ^ n := by
    rw [hn, zpow_add₀ (by norm_num), zpow_natCast]
  have hdiv : (m : ℚ) * 2 ^ z / 2 ^ q = ((m * 2 ^ n : ℤ) : ℚ) := by
    rw [hz2, div_eq_iff (two_pos q).ne']; push_cast; ring
  rw [hdiv, rne_int, hz2]
  push_cast; ring

theorem round_dyadic (p : ℕ) (emin : ℤ) (hp : 1 ≤ p) (m k : ℕ) (hm : m ≤ 2 ^ p)
    (hk : emin ≤ -(k : ℤ)) : round p emin (m / 2 ^ k) = m / 2 ^ k := by
  have he : ((m : ℚ) / 2 ^ k) = m * 2 ^ (-(k : ℤ)) := by
    rw [zpow_neg, zpow_natCast, div_eq_mul_inv]
  rcases Nat.eq_zero_or_pos m with rfl | hpos
  · simp [round]
  · have hx : (0 : ℚ) < m / 2 ^ k := div_pos (by exact_mod_cast hpos) (by positivity)
    unfold round
    rw [if_pos hx, he]
    rcases lt_or_eq_of_le hm with hlt | heq
    · exact roundPos_exact p emin m _ hpos hlt hk
    · obtain ⟨p', rfl⟩ : ∃ p', p = p' + 1 := ⟨p - 1, by omega⟩
      have h2 : (m : ℚ) * 2 ^ (-(k : ℤ)) = ((2 ^ p' : ℕ) : ℚ) * 2 ^ (-(k : ℤ) + 1) := by
        rw [heq, zpow_add₀ (by norm_num), pow_succ]; push_cast; ring
      rw [h2]
      exact roundPos_exact _ emin _ _ (by positivity) (Nat.pow_lt_pow_right (by norm_num) (by omega))
        (by omega)

/-- A rounded positive number is a significand times a power of two. -/
theorem roundPos_form (p : ℕ) (emin : ℤ) {x : ℚ} (hx : 0 < x) :
    ∃ m : ℕ, m ≤ 2 ^ p ∧ roundPos p emin x = m * 2 ^ quantum p emin x := by
  have h0 : (0 : ℤ) ≤ rne (x / 2 ^ quantum p emin x) := by
    have := rne_mono (x := ((0 : ℤ) : ℚ)) (y := x / 2 ^ quantum p emin x)
      (by push_cast; exact (div_pos hx (two_pos _)).le)
    rwa [rne_int] at this
  have h1 : x / 2 ^ quantum p emin x ≤ ((2 ^ p : ℤ) : ℚ) := by
    rw [div_le_iff₀ (two_pos _)]
    refine (lt_log x).le.trans ?_
    have : ((2 ^ p : ℤ) : ℚ) * 2 ^ quantum p emin x = 2 ^ ((p : ℤ) + quantum p emin x) := by
      rw [zpow_add₀ (by norm_num)]; push_cast; rw [zpow_natCast]
    rw [this]
    refine two_zpow_le ?_
    unfold quantum
    omega
  have h2 := rne_mono h1
  rw [rne_int] at h2
  refine ⟨(rne (x / 2 ^ quantum p emin x)).toNat, ?_, ?_⟩
  · zify; rw [Int.toNat_of_nonneg h0]; exact h2
  · unfold roundPos
    congr 1
    have : ((rne (x / 2 ^ quantum p emin x)).toNat : ℤ) = rne (x / 2 ^ quantum p emin x) :=
      Int.toNat_of_nonneg h0
    exact_mod_cast this.symm

theorem emin_le_quantum (p : ℕ) (emin : ℤ) (x : ℚ) : emin ≤ quantum p emin x := le_max_right _ _

theorem round_form_exact (p : ℕ) (emin : ℤ) (hp : 1 ≤ p) (m : ℕ) (z : ℤ) (hm : m ≤ 2 ^ p)
    (hz : emin ≤ z) : round p emin (m * 2 ^ z) = m * 2 ^ z := by
  rcases Nat.eq_zero_or_pos m with rfl | hpos
  · simp [round]
  · have hx : (0 : ℚ) < m * 2 ^ z := mul_pos (by exact_mod_cast hpos) (two_pos z)
    unfold round
    rw [if_pos hx]
    rcases lt_or_eq_of_le hm with hlt | heq
    · exact roundPos_exact p emin m _ hpos hlt hz
    · obtain ⟨p', rfl⟩ : ∃ p', p = p' + 1 := ⟨p - 1, by omega⟩
      have h2 : (m : ℚ) * 2 ^ z = ((2 ^ p' : ℕ) : ℚ) * 2 ^ (z + 1) := by
        rw [heq, zpow_add₀ (by norm_num), pow_succ]; push_cast; ring
      rw [h2]
      exact roundPos_exact _ emin _ _ (by positivity) (Nat.pow_lt_pow_right (by norm_num) (by omega))
        (by omega)

theorem round_neg (p : ℕ) (emin : ℤ) (x : ℚ) : round p emin (-x) = -round p emin x := by
  unfold round
  rcases lt_trichotomy x 0 with h | h | h
  · rw [if_pos (by linarith), if_neg (by linarith), if_pos h, neg_neg]
  · subst h; simp
  · rw [if_neg (by linarith), if_pos (by linarith), if_pos h, neg_neg]

theorem round_idem (p : ℕ) (emin : ℤ) (hp : 1 ≤ p) (x : ℚ) :
    round p emin (round p emin x) = round p emin x := by
  have key : ∀ y : ℚ, 0 < y → round p emin (round p emin y) = round p emin y := by
    intro y hy
    have h : round p emin y = roundPos p emin y := by unfold round; rw [if_pos hy]
    obtain ⟨m, hm, he⟩ := roundPos_form p emin hy
    rw [h, he]
    exact round_form_exact p emin hp m _ hm (emin_le_quantum p emin y)
  rcases lt_trichotomy x 0 with h | h | h
  · have := key (-x) (by linarith)
    rw [round_neg, round_neg] at this
    exact neg_injective this
  · subst h; simp [round]
  · exact key x h

/-- Rounded numbers are multiples of the smallest one. -/
theorem round_multiple (p : ℕ) (emin : ℤ) (x : ℚ) : ∃ k : ℤ, round p emin x = k * 2 ^ emin := by
  have key : ∀ y : ℚ, 0 < y → ∃ k : ℤ, round p emin y = k * 2 ^ emin := by
    intro y hy
    have h : round p emin y = roundPos p emin y := by unfold round; rw [if_pos hy]
    obtain ⟨m, hm, he⟩ := roundPos_form p emin hy
    obtain ⟨n, hn⟩ : ∃ n : ℕ, quantum p emin y = emin + n :=
      ⟨(quantum p emin y - emin).toNat, by have := emin_le_quantum p emin y; omega⟩
    refine ⟨m * 2 ^ n, ?_⟩
    rw [h, he, hn, zpow_add₀ (by norm_num), zpow_natCast]
    push_cast; ring
  rcases lt_trichotomy x 0 with h | h | h
  · obtain ⟨k, hk⟩ := key (-x) (by linarith)
    refine ⟨-k, ?_⟩
    rw [round_neg] at hk
    push_cast; linarith
  · exact ⟨0, by subst h; simp [round]⟩
  · exact key x h

theorem round_gap (p : ℕ) (emin : ℤ) (hp : 1 ≤ p) (a b : ℚ) (ha : round p emin a = a)
    (hb : round p emin b = b) (h : a < b) : 0 < round p emin (b - a) := by
  obtain ⟨i, hi⟩ := round_multiple p emin a
  obtain ⟨j, hj⟩ := round_multiple p emin b
  rw [ha] at hi
  rw [hb] at hj
  have hpos := two_pos emin
  have hij : i < j := by
    have : (i : ℚ) * 2 ^ emin < j * 2 ^ emin := by rw [← hi, ← hj]; exact h
    exact_mod_cast lt_of_mul_lt_mul_right this hpos.le
  have hd : (2 : ℚ) ^ emin ≤ b - a := by
    rw [hi, hj, ← sub_mul]
    have : (1 : ℚ) ≤ j - i := by
      have : (i : ℚ) + 1 ≤ j := by exact_mod_cast hij
      linarith
    nlinarith
  have h1 : round p emin ((1 : ℕ) * 2 ^ emin) = (1 : ℕ) * 2 ^ emin :=
    round_form_exact p emin hp 1 emin (Nat.one_le_two_pow) le_rfl
  have := round_mono p emin hp hd
  simp only [Nat.cast_one, one_mul] at h1
  rw [h1] at this
  linarith

theorem roundPos_err (p : ℕ) (emin : ℤ) {x : ℚ} :
    |roundPos p emin x - x| ≤ 1 / 2 * 2 ^ quantum p emin x := by
  unfold roundPos
  have hq := two_pos (quantum p emin x)
  have h := rne_close (x / 2 ^ quantum p emin x)
  have he : (rne (x / 2 ^ quantum p emin x) : ℚ) * 2 ^ quantum p emin x - x =
      ((rne (x / 2 ^ quantum p emin x) : ℚ) - x / 2 ^ quantum p emin x) * 2 ^ quantum p emin x := by
    field_simp
  rw [he, abs_mul, abs_of_pos hq]
  exact mul_le_mul_of_nonneg_right h hq.le

theorem quantum_le (p : ℕ) (emin z : ℤ) {x : ℚ} (hx : 0 < x) (h : x < 2 ^ (z + 1))
    (hz : emin ≤ z - (p - 1)) : quantum p emin x ≤ z - (p - 1) := by
  have h1 : (2 : ℚ) ^ Int.log 2 x < 2 ^ (z + 1) := lt_of_le_of_lt (log_le hx) h
  have h2 : Int.log 2 x < z + 1 := (zpow_lt_zpow_iff_right₀ (by norm_num)).1 h1
  unfold quantum
  omega

/-- Numbers in [0,1] are rounded to `double` with an error of at most `2^-54`. -/
theorem round_err (a : ℚ) (h0 : 0 ≤ a) (h1 : a ≤ 1) : |round 53 (-1074) a - a| ≤ 1 / 2 ^ 54 := by
  rcases eq_or_lt_of_le h0 with rfl | hpos
  · simp [round]
  · rcases eq_or_lt_of_le h1 with rfl | hlt
    · have := round_dyadic 53 (-1074) (by norm_num) 1 0 (by norm_num) (by norm_num)
      simp only [Nat.cast_one, pow_zero, div_one] at this
      rw [this]; norm_num
    · have hq := quantum_le 53 (-1074) (-1) hpos (by norm_num; exact hlt) (by norm_num)
      unfold round
      rw [if_pos hpos]
      refine (roundPos_err 53 (-1074)).trans ?_
      have := two_zpow_le hq
      have h3 : (2 : ℚ) ^ ((-1 : ℤ) - ((53 : ℕ) - 1)) = 1 / 2 ^ 53 := by norm_num [zpow_neg]
      rw [h3] at this
      linarith

theorem round_near_one (a : ℚ) (h : a ≤ 1 + 1 / 2 ^ 54) : round 53 (-1074) a ≤ 1 := by
  refine (round_mono 53 (-1074) (by norm_num) h).trans ?_
  have hl : Int.log 2 (1 + 1 / 2 ^ 54 : ℚ) = 0 := by
    have h1 : (2 : ℚ) ^ Int.log 2 (1 + 1 / 2 ^ 54 : ℚ) < 2 ^ (1 : ℤ) :=
      lt_of_le_of_lt (log_le (by norm_num)) (by norm_num)
    have h2 : (2 : ℚ) ^ (0 : ℤ) < 2 ^ (Int.log 2 (1 + 1 / 2 ^ 54 : ℚ) + 1) :=
      lt_of_le_of_lt (by norm_num) (lt_log _)
    have h3 := (zpow_lt_zpow_iff_right₀ (a := (2 : ℚ)) (by norm_num)).1 h1
    have h4 := (zpow_lt_zpow_iff_right₀ (a := (2 : ℚ)) (by norm_num)).1 h2
    omega
  have hq : quantum 53 (-1074) (1 + 1 / 2 ^ 54 : ℚ) = -52 := by
    unfold quantum; rw [hl]; norm_num
  have hr : rne ((1 + 1 / 2 ^ 54 : ℚ) / 2 ^ (-52 : ℤ)) = 2 ^ 52 := by
    have : ((1 + 1 / 2 ^ 54 : ℚ) / 2 ^ (-52 : ℤ)) = (2 ^ 52 : ℤ) + 1 / 4 := by
      norm_num [zpow_neg]
    rw [this]
    have hf : ⌊(((2 ^ 52 : ℤ) : ℚ) + 1 / 4)⌋ = 2 ^ 52 := by
      rw [Int.floor_eq_iff]; constructor <;> norm_num
    unfold rne
    rw [hf, if_pos (by norm_num)]
  unfold round
  rw [if_pos (by norm_num)]
  unfold roundPos
  rw [hq, hr]
  norm_num [zpow_neg]

end Kws.Ieee

namespace Kws

/-- IEEE-754 arithmetic satisfies the assumptions made about rounding. -/
theorem ieee_faithful : Rnd.ieee.Faithful where
  mono32 := fun _ _ h => Ieee.round_mono 24 _ (by norm_num) h
  mono64 := fun _ _ h => Ieee.round_mono 53 _ (by norm_num) h
  dyadic32 := fun m k hm hk => Ieee.round_dyadic 24 _ (by norm_num) m k hm (by omega)
  dyadic64 := fun m k hm hk => Ieee.round_dyadic 53 _ (by norm_num) m k hm (by omega)

theorem exact_faithful : Rnd.exact.Faithful where
  mono32 := fun _ _ h => h
  mono64 := fun _ _ h => h
  dyadic32 := fun _ _ _ _ => rfl
  dyadic64 := fun _ _ _ _ => rfl

theorem ieee_precise : Rnd.ieee.Precise where
  toFaithful := ieee_faithful
  idem64 := Ieee.round_idem 53 _ (by norm_num)
  gap64 := Ieee.round_gap 53 _ (by norm_num)
  err64 := Ieee.round_err
  compl64 := fun t h0 h1 => by
    refine Ieee.round_near_one _ ?_
    have := (abs_le.1 (Ieee.round_err (1 - t) (by linarith) (by linarith))).2
    have h : Rnd.ieee.f64 (1 - t) = Ieee.round 53 (-1074) (1 - t) := rfl
    rw [h]
    linarith

theorem exact_precise : Rnd.exact.Precise where
  toFaithful := exact_faithful
  idem64 := fun _ => rfl
  gap64 := fun a b _ _ h => by show 0 < b - a; linarith
  err64 := fun a _ _ => by simp [Rnd.exact]
  compl64 := fun t _ _ => by show t + (1 - t) ≤ 1; linarith

namespace Rnd.Faithful
variable {R : Rnd} (hR : R.Faithful)
include hR

theorem nat32 (n : ℕ) (h : n ≤ 2 ^ 24) : R.f32 n = n := by
  simpa using hR.dyadic32 n 0 h (by norm_num)

theorem nat64 (n : ℕ) (h : n ≤ 2 ^ 53) : R.f64 n = n := by
  simpa using hR.dyadic64 n 0 h (by norm_num)

theorem zero32 : R.f32 0 = 0 := by simpa using hR.nat32 0 (by norm_num)
theorem one32 : R.f32 1 = 1 := by simpa using hR.nat32 1 (by norm_num)
theorem zero64 : R.f64 0 = 0 := by simpa using hR.nat64 0 (by norm_num)
theorem one64 : R.f64 1 = 1 := by simpa using hR.nat64 1 (by norm_num)

theorem nonneg32 {x : ℚ} (h : 0 ≤ x) : 0 ≤ R.f32 x := by
  have := hR.mono32 0 x h; rwa [hR.zero32] at this

theorem le_one32 {x : ℚ} (h : x ≤ 1) : R.f32 x ≤ 1 := by
  have := hR.mono32 x 1 h; rwa [hR.one32] at this

theorem nonneg64 {x : ℚ} (h : 0 ≤ x) : 0 ≤ R.f64 x := by
  have := hR.mono64 0 x h; rwa [hR.zero64] at this

theorem le_one64 {x : ℚ} (h : x ≤ 1) : R.f64 x ≤ 1 := by
  have := hR.mono64 x 1 h; rwa [hR.one64] at this

end Rnd.Faithful

end Kws

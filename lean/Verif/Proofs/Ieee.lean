import Verif.Spec.Ieee
import Mathlib.Analysis.Complex.Trigonometric

/-! Binary formats with correctly rounded functions, and basic facts about IEEE values. -/

namespace SmartDNN
open Spec

section
variable {p emin : Int}

theorem ulp_neg (x : ℝ) : ulp p emin (-x) = ulp p emin x := by unfold ulp; rw [abs_neg]

/-- Multiples of the spacing around them are numbers of the format. -/
theorem rnd_of_mul (x : ℝ) (k : Int) (h : x = k * ulp p emin x) : rnd p emin x = x := by
  have hp := ulp_pos p emin x
  have : x / ulp p emin x = k := by rw [div_eq_iff hp.ne']; exact h
  unfold rnd
  rw [this, round_intCast, ← h]

theorem rnd_neg {x : ℝ} (h : rnd p emin x = x) : rnd p emin (-x) = -x := by
  refine rnd_of_mul _ (-round (x / ulp p emin x)) ?_
  rw [ulp_neg]
  unfold rnd at h
  push_cast
  linarith

theorem zpow_mul_of_le {a b : Int} (h : a ≤ b) : ∃ k : Int, (2 : ℝ) ^ b = k * 2 ^ a := by
  obtain ⟨n, hn⟩ := Int.eq_ofNat_of_zero_le (sub_nonneg.2 h)
  refine ⟨2 ^ n, ?_⟩
  have : b = (n : Int) + a := by omega
  rw [this, zpow_add₀ (by norm_num), zpow_natCast]
  push_cast
  ring

/-- Rounding is at least as close as any multiple of the spacing. -/
theorem rnd_le_mul (x : ℝ) (k : Int) : |rnd p emin x - x| ≤ |k * ulp p emin x - x| := by
  have hp := ulp_pos p emin x
  have h := round_le (x / ulp p emin x) k
  have e1 : rnd p emin x - x = -((x / ulp p emin x - round (x / ulp p emin x)) * ulp p emin x) := by
    unfold rnd
    field_simp
    ring
  have e2 : k * ulp p emin x - x = -((x / ulp p emin x - k) * ulp p emin x) := by
    field_simp
    ring
  rw [e1, e2, abs_neg, abs_neg, abs_mul, abs_mul]
  exact mul_le_mul_of_nonneg_right h (abs_nonneg _)

theorem rnd_le_of {x B : ℝ} (hB : ∃ k : Int, B = k * ulp p emin x) (h : x ≤ B) : rnd p emin x ≤ B := by
  obtain ⟨k, rfl⟩ := hB
  have hp := ulp_pos p emin x
  unfold rnd
  refine mul_le_mul_of_nonneg_right ?_ hp.le
  have : x / ulp p emin x ≤ k := (div_le_iff₀ hp).2 h
  have h2 : round (x / ulp p emin x) ≤ k := by
    rw [round_eq, ← Int.lt_add_one_iff, Int.floor_lt]
    push_cast
    linarith
  exact_mod_cast h2

theorem le_rnd_of {x B : ℝ} (hB : ∃ k : Int, B = k * ulp p emin x) (h : B ≤ x) : B ≤ rnd p emin x := by
  obtain ⟨k, rfl⟩ := hB
  have hp := ulp_pos p emin x
  unfold rnd
  refine mul_le_mul_of_nonneg_right ?_ hp.le
  have : (k : ℝ) ≤ x / ulp p emin x := (le_div_iff₀ hp).2 h
  have h2 : k ≤ round (x / ulp p emin x) := by
    rw [round_eq, Int.le_floor]
    linarith
  exact_mod_cast h2

theorem rnd_nearest (hp : 0 ≤ p) (x y : ℝ) : |rnd p emin x - x| ≤ |rnd p emin y - x| := by
  by_cases hle : max (Int.log 2 |x| - p) emin ≤ max (Int.log 2 |y| - p) emin
  · obtain ⟨k, hk⟩ := zpow_mul_of_le hle
    have : rnd p emin y = ((round (y / ulp p emin y) * k : Int) : ℝ) * ulp p emin x := by
      unfold rnd
      conv_lhs => rw [show ulp p emin y = k * ulp p emin x from hk]
      rw [show (k : ℝ) * ulp p emin x = ulp p emin y from hk.symm]
      push_cast
      rw [mul_assoc, show (k : ℝ) * ulp p emin x = ulp p emin y from hk.symm]
    rw [this]
    exact rnd_le_mul x _
  · rw [not_le] at hle
    have hk : max (Int.log 2 |x| - p) emin = Int.log 2 |x| - p := by omega
    have hlog : Int.log 2 |y| < Int.log 2 |x| := by omega
    by_cases hx : x = 0
    · subst hx
      have : rnd p emin 0 = 0 := by simp [rnd]
      rw [this]
      simp
    set B : ℝ := 2 ^ Int.log 2 |x| with hB
    have hBx : B ≤ |x| := by
      have := Int.zpow_log_le_self (b := 2) one_lt_two (abs_pos.2 hx)
      push_cast at this
      exact this
    have hyB : |y| ≤ B := by
      by_cases hy : y = 0
      · rw [hy, abs_zero]; positivity
      · have := (Int.lt_zpow_iff_log_lt (b := 2) one_lt_two (abs_pos.2 hy)).2 hlog
        push_cast at this
        exact this.le
    have hmx : ∃ k : Int, B = k * ulp p emin x := by
      unfold ulp
      rw [hk]
      exact zpow_mul_of_le (by omega)
    have hmy : ∃ k : Int, B = k * ulp p emin y := by
      unfold ulp
      exact zpow_mul_of_le (by omega)
    have hmy' : ∃ k : Int, -B = k * ulp p emin y := by
      obtain ⟨k, e⟩ := hmy
      exact ⟨-k, by rw [e]; push_cast; ring⟩
    have h1 := rnd_le_of hmy (le_trans (le_abs_self y) hyB)
    have h2 := le_rnd_of hmy' (neg_le_of_abs_le hyB)
    obtain ⟨k, e⟩ := hmx
    rcases le_total 0 x with hs | hs
    · have h := rnd_le_mul (p := p) (emin := emin) x k
      rw [← e] at h
      rw [abs_of_nonneg hs] at hBx
      rw [abs_of_nonpos (by linarith : B - x ≤ 0)] at h
      refine h.trans ?_
      rw [abs_of_nonpos (by linarith)]
      linarith
    · have h := rnd_le_mul (p := p) (emin := emin) x (-k)
      have e' : ((-k : Int) : ℝ) * ulp p emin x = -B := by rw [e]; push_cast; ring
      rw [e'] at h
      rw [abs_of_nonpos hs] at hBx
      rw [abs_of_nonneg (by linarith : 0 ≤ -B - x)] at h
      refine h.trans ?_
      rw [abs_of_nonneg (by linarith)]
      linarith

theorem log_two_zpow (e : Int) : Int.log 2 |(2 : ℝ) ^ e| = e := by
  rw [abs_of_pos (by positivity)]
  have := Int.log_zpow (R := ℝ) (b := 2) one_lt_two e
  push_cast at this
  exact this

theorem rnd_zpow (hp : 0 ≤ p) {e : Int} (he : emin ≤ e) : rnd p emin (2 ^ e) = 2 ^ e := by
  obtain ⟨k, hk⟩ := zpow_mul_of_le (show max (e - p) emin ≤ e by omega)
  refine rnd_of_mul _ k ?_
  unfold ulp
  rw [log_two_zpow]
  exact hk

theorem rnd_mono (hp : 0 ≤ p) {x y : ℝ} (h : x ≤ y) : rnd p emin x ≤ rnd p emin y := by
  rcases h.eq_or_lt with rfl | h
  · exact le_rfl
  by_contra hc
  rw [not_le] at hc
  have h1 := rnd_nearest (emin := emin) hp x y
  have h2 := rnd_nearest (emin := emin) hp y x
  rw [abs_le] at h1 h2
  rcases abs_cases (rnd p emin y - x) with ⟨a, -⟩ | ⟨a, -⟩ <;> rcases abs_cases (rnd p emin x - y) with ⟨b, -⟩ | ⟨b, -⟩ <;>
    rw [a] at h1 <;> rw [b] at h2 <;> linarith [h1.1, h1.2, h2.1, h2.2]

theorem big_lower {emax : Int} (hp : 1 ≤ p) : (2 : ℝ) ^ emax ≤ (2 ^ (p + 1) - 1) * 2 ^ (emax - p) := by
  have hP : (2 : ℝ) ^ p ≤ 2 ^ (p + 1) - 1 := by
    rw [zpow_add₀ (by norm_num)]
    have : (1 : ℝ) ≤ 2 ^ p := one_le_zpow₀ (by norm_num) (by omega)
    norm_num
    linarith
  have e1 : (2 : ℝ) ^ emax = 2 ^ p * 2 ^ (emax - p) := by rw [← zpow_add₀ (by norm_num)]; congr 1; omega
  rw [e1]
  exact mul_le_mul_of_nonneg_right hP (by positivity)

/-- Numbers just above the largest one of the binade round to it. -/
theorem rnd_big {emax : Int} (hp : 1 ≤ p) (hemin : emin ≤ -1) (hpe : p + 2 < emax) {d : ℝ} (h0 : 0 ≤ d) (h1 : d ≤ 1) :
    rnd p emin ((2 ^ (p + 1) - 1) * 2 ^ (emax - p) + d) = (2 ^ (p + 1) - 1) * 2 ^ (emax - p) ∧
    rnd p emin (-((2 ^ (p + 1) - 1) * 2 ^ (emax - p) + d)) = -((2 ^ (p + 1) - 1) * 2 ^ (emax - p)) := by
  have hg : (4 : ℝ) < 2 ^ (emax - p) := by
    have : ((2 : ℝ) ^ (2 : Int)) < 2 ^ (emax - p) := zpow_lt_zpow_right₀ (by norm_num) (by omega)
    norm_num at this
    exact this
  have hP : (2 : ℝ) ^ p ≤ 2 ^ (p + 1) - 1 := by
    rw [zpow_add₀ (by norm_num)]
    have : (1 : ℝ) ≤ 2 ^ p := one_le_zpow₀ (by norm_num) (by omega)
    norm_num
    linarith
  set g : ℝ := 2 ^ (emax - p) with hgd
  have e1 : (2 : ℝ) ^ p * g = 2 ^ emax := by rw [hgd, ← zpow_add₀ (by norm_num)]; congr 1; omega
  have e2 : (2 : ℝ) ^ (p + 1) * g = 2 ^ (emax + 1) := by rw [hgd, ← zpow_add₀ (by norm_num)]; congr 1; omega
  set x : ℝ := (2 ^ (p + 1) - 1) * g + d with hx
  have hlo : (2 : ℝ) ^ emax ≤ x := by nlinarith
  have hhi : x < 2 ^ (emax + 1) := by
    have : (2 ^ (p + 1) - 1) * g = 2 ^ (emax + 1) - g := by rw [sub_mul, e2, one_mul]
    linarith
  have hpos : 0 < x := lt_of_lt_of_le (by positivity) hlo
  have hlog : Int.log 2 |x| = emax := by
    rw [abs_of_pos hpos]
    apply le_antisymm
    · have := (Int.lt_zpow_iff_log_lt (b := 2) one_lt_two hpos (x := emax + 1)).1 (by push_cast; exact hhi)
      omega
    · exact (Int.zpow_le_iff_le_log (b := 2) one_lt_two hpos).1 (by push_cast; exact hlo)
  have hu : ulp p emin x = g := by
    unfold ulp
    rw [hlog, max_eq_left (by omega)]
  obtain ⟨n, hn⟩ := Int.eq_ofNat_of_zero_le (show 0 ≤ p + 1 by omega)
  have hPi : (2 : ℝ) ^ (p + 1) - 1 = ((2 ^ n - 1 : Int) : ℝ) := by rw [hn]; push_cast; norm_num
  have hq : x / g = ((2 ^ n - 1 : Int) : ℝ) + d / g := by rw [hx, ← hPi]; field_simp
  have a : 0 ≤ d / g := by positivity
  have b : d / g < 1 / 4 := by rw [div_lt_div_iff₀ (by linarith) (by norm_num)]; linarith
  unfold rnd
  rw [ulp_neg, hu]
  have r1 : round (x / g) = 2 ^ n - 1 := by
    rw [round_eq, Int.floor_eq_iff, hq]
    constructor <;> linarith
  have r2 : round (-x / g) = -(2 ^ n - 1) := by
    rw [round_eq, Int.floor_eq_iff, neg_div, hq]
    push_cast
    constructor <;> linarith
  rw [r1, r2, ← hPi, Int.cast_neg, ← hPi]
  exact ⟨rfl, by ring⟩

end

/-- The binary format with significands of `p + 1` bits, subnormal spacing `2^emin` and largest exponent `emax`.  `float` is
`p = 23, emin = -149, emax = 127`, `double` is `p = 52, emin = -1074, emax = 1023`. -/
noncomputable def Spec.Format.binary (p emin emax : Int) (hp : 1 ≤ p) (hemin : emin ≤ -1) (hemax : 100 < emax) (hpe : p + 2 < emax) : Format where
  rd := rnd p emin
  big := (2 ^ (p + 1) - 1) * 2 ^ (emax - p)
  nearest := rnd_nearest (by omega)
  neg _ := rnd_neg
  zero := by simp [rnd]
  one := by simpa using rnd_zpow (p := p) (emin := emin) (by omega) (e := 0) (by omega)
  two := by simpa using rnd_zpow (p := p) (emin := emin) (by omega) (e := 1) (by omega)
  big_rd := by simpa using (rnd_big hp hemin hpe le_rfl zero_le_one).1
  big_ge := by
    have h := big_lower (emax := emax) hp
    have : (2 : ℝ) ^ (100 : Int) ≤ 2 ^ emax := zpow_le_zpow_right₀ (by norm_num) (by omega)
    calc (2 : ℝ) ^ 100 = 2 ^ (100 : Int) := by norm_num
      _ ≤ _ := this.trans h
  under x h := by
    have a := rnd_big (emin := emin) hp hemin hpe zero_le_one le_rfl
    rw [abs_le] at h ⊢
    exact ⟨a.2 ▸ rnd_mono (by omega) h.1, a.1 ▸ rnd_mono (by omega) h.2⟩
  over x h := by
    have h1 := big_lower (emax := emax) hp
    have h2 : (2 : ℝ) ^ (emax + 1) ≤ x := by rw [zpow_add₀ (by norm_num)]; norm_num; linarith
    have h3 := rnd_mono (emin := emin) (by omega : 0 ≤ p) h2
    rw [rnd_zpow (by omega) (by omega)] at h3
    refine lt_of_lt_of_le ?_ h3
    have e2 : (2 : ℝ) ^ (p + 1) * 2 ^ (emax - p) = 2 ^ (emax + 1) := by rw [← zpow_add₀ (by norm_num)]; congr 1; omega
    have : (0 : ℝ) < 2 ^ (emax - p) := by positivity
    linarith

namespace Spec
variable {R : Format}

theorem Format.rd_nonneg {x : ℝ} (h : 0 ≤ x) : 0 ≤ R.rd x := R.zero ▸ R.mono h
theorem Format.rd_nonpos {x : ℝ} (h : x ≤ 0) : R.rd x ≤ 0 := by have := R.mono h; rwa [R.zero] at this
theorem Format.rd_le_one {x : ℝ} (h : x ≤ 1) : R.rd x ≤ 1 := by have := R.mono h; rwa [R.one] at this
theorem Format.neg_one_le_rd {x : ℝ} (h : -1 ≤ x) : -1 ≤ R.rd x := by have := R.mono h; rwa [R.neg 1 R.one] at this

namespace Ieee

theorem ofReal_num {x : ℝ} (h : |R.rd x| ≤ R.big) : ofReal R x = .num (R.rd x) (R.idem x) h := by
  unfold ofReal
  rw [dif_pos h]

theorem ofReal_fin {x : ℝ} (h : |x| ≤ R.big + 1) : (ofReal R x).Finite ∧ (ofReal R x).val = R.rd x := by
  rw [ofReal_num (R.under x h)]
  exact ⟨⟨_, _, _, rfl⟩, rfl⟩

theorem one_le_big (R : Format) : 1 ≤ R.big := le_trans (by norm_num) R.big_ge

theorem ofReal_over {x : ℝ} (h : 2 * R.big < x) : ofReal R x = .inf false := by
  unfold ofReal
  have h1 := R.over x h
  have h2 := one_le_big R
  rw [dif_neg (by rw [abs_of_pos (by linarith)]; linarith), decide_eq_false (by linarith)]

/-- Results too large to be rounded to a number. -/
theorem ofReal_cases (R : Format) (x : ℝ) : (ofReal R x).Finite ∧ (ofReal R x).val = R.rd x ∨ ofReal R x = .inf (decide (x < 0)) := by
  unfold ofReal
  split
  · exact .inl ⟨⟨_, _, _, rfl⟩, rfl⟩
  · right
    congr

theorem ofReal_val {x : ℝ} (h : R.rd x = x) (hb : |x| ≤ R.big) : ofReal R x = .num x h hb := by
  have : |R.rd x| ≤ R.big := by rw [h]; exact hb
  rw [ofReal_num this]
  congr

theorem zero_def : (0 : Ieee R) = .num 0 R.zero (by rw [abs_zero]; linarith [one_le_big R]) := ofReal_val _ _
theorem one_def : (1 : Ieee R) = .num 1 R.one (by rw [abs_one]; exact one_le_big R) := ofReal_val _ _

/-- Correctly rounded `<cmath>` functions. -/
@[reducible] noncomputable def rounded (R : Format) : MathFn (Ieee R) where
  exp
    | .num x _ _ => ofReal R (Real.exp x)
    | .inf false => .inf false
    | .inf true => 0
    | .nan => .nan
  log
    | .num x _ _ => open Classical in if x = 0 then .inf true else if x < 0 then .nan else ofReal R (Real.log x)
    | .inf false => .inf false
    | .inf true => .nan
    | .nan => .nan
  sqrt
    | .num x _ _ => open Classical in if x < 0 then .nan else ofReal R (Real.sqrt x)
    | .inf false => .inf false
    | .inf true => .nan
    | .nan => .nan
  tanh
    | .num x _ _ => ofReal R (Real.tanh x)
    | .inf false => 1
    | .inf true => -1
    | .nan => .nan
  powi
    | .num x _ _, n => ofReal R (x ^ n)
    | .inf s, n => if n = 0 then 1 else .inf (s && n % 2 == 1)
    | .nan, n => if n = 0 then 1 else .nan
  toFloat a := a

/-- They meet the assumptions, in every format whose smallest positive number is at least `2^(-big)`. -/
theorem rounded_libm (hmin : ∀ x, R.rd x = x → 0 < x → -R.big ≤ Real.log x) : @Libm R (rounded R) := by
  letI := rounded R
  have h1 := one_le_big R
  constructor
  · rintro _ ⟨x, h, hb, rfl⟩
    rcases ofReal_cases R (Real.exp x) with ⟨a, b⟩ | a
    · right
      refine ⟨a, ?_⟩
      show 0 ≤ (ofReal R (Real.exp x)).val
      rw [b]
      exact R.rd_nonneg (Real.exp_pos x).le
    · left
      rw [decide_eq_false (not_lt.2 (Real.exp_pos x).le)] at a
      exact a
  · rintro _ ⟨x, h, hb, rfl⟩ hx
    have hx1 := Real.exp_le_one_iff.2 (show x ≤ 0 from hx)
    have := ofReal_fin (R := R) (x := Real.exp x) (by rw [abs_of_pos (Real.exp_pos x)]; linarith)
    exact ⟨this.1, by show (ofReal R (Real.exp x)).val ≤ 1; rw [this.2]; exact R.rd_le_one hx1⟩
  · rw [zero_def]
    show ofReal R (Real.exp 0) = 1
    rw [Real.exp_zero]
    rfl
  · rintro _ ⟨x, h, hb, rfl⟩ hx
    exact ofReal_over hx
  · rfl
  · rfl
  · rfl
  · rintro _ ⟨x, h, hb, rfl⟩ (hx : 0 < x)
    show (if x = 0 then Ieee.inf true else if x < 0 then .nan else ofReal R (Real.log x)).Finite
    rw [if_neg hx.ne', if_neg (not_lt.2 hx.le)]
    refine (ofReal_fin ?_).1
    have h2 := Real.log_le_self hx.le
    have h3 := hmin x h hx
    rw [abs_le] at hb ⊢
    constructor <;> linarith [hb.2]
  · rintro _ ⟨x, h, hb, rfl⟩ (hx : 0 < x) (hx1 : x ≤ 1)
    show (if x = 0 then Ieee.inf true else if x < 0 then .nan else ofReal R (Real.log x)).val ≤ 0
    rw [if_neg hx.ne', if_neg (not_lt.2 hx.le)]
    have h3 := hmin x h hx
    have h4 := Real.log_nonpos hx.le hx1
    rw [(ofReal_fin (by rw [abs_of_nonpos h4]; linarith)).2]
    exact R.rd_nonpos h4
  · rfl
  · rfl
  · rintro _ ⟨x, h, hb, rfl⟩
    have h2 := Real.abs_tanh_lt_one x
    have := ofReal_fin (R := R) (x := Real.tanh x) (by linarith)
    refine ⟨this.1, ?_⟩
    show |(ofReal R (Real.tanh x)).val| ≤ 1
    rw [this.2]
    rw [abs_lt] at h2
    exact abs_le.2 ⟨R.neg_one_le_rd h2.1.le, R.rd_le_one h2.2.le⟩
  · rfl
  · rfl
  · rintro _ ⟨x, h, hb, rfl⟩ e
    cases e
  · rfl

end Ieee

/-- Binary formats with correctly rounded functions meet the assumptions. -/
theorem Format.binary_libm {p emin emax : Int} (hp : 1 ≤ p) (hemin : emin ≤ -1) (hemax : 100 < emax) (hpe : p + 2 < emax)
    (hlo : -2 ^ 100 ≤ emin) : @Ieee.Libm (Format.binary p emin emax hp hemin hemax hpe) (Ieee.rounded _) := by
  refine Ieee.rounded_libm fun x hx h0 => ?_
  obtain ⟨k, hk⟩ := rnd_grid p emin x
  have hk' : x = k * 2 ^ emin := by rw [← hk]; exact hx.symm
  have hpos : (0 : ℝ) < 2 ^ emin := by positivity
  have hk1 : (1 : ℝ) ≤ k := by
    have : (0 : ℝ) < k := by
      rw [hk'] at h0
      exact (mul_pos_iff_of_pos_right hpos).1 h0
    have : 0 < k := by exact_mod_cast this
    exact_mod_cast this
  have h2 : (2 : ℝ) ^ emin ≤ x := by rw [hk']; nlinarith
  have h3 := Real.log_le_log hpos h2
  rw [Real.log_zpow] at h3
  have h4 := (Format.binary p emin emax hp hemin hemax hpe).big_ge
  have h5 : (-2 ^ 100 : ℝ) ≤ emin := by exact_mod_cast hlo
  have h6 : Real.log 2 ≤ 1 := by have := Real.log_le_sub_one_of_pos (show (0 : ℝ) < 2 by norm_num); linarith
  have h7 : (emin : ℝ) ≤ 0 := by exact_mod_cast (by omega : emin ≤ 0)
  have h8 : 0 ≤ Real.log 2 := Real.log_nonneg (by norm_num)
  nlinarith

end Spec
end SmartDNN

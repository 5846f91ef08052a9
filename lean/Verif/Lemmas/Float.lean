import Verif.Model.Float
import Mathlib.Tactic.Linarith
import Mathlib.Tactic.NormNum
import Mathlib.Tactic.Positivity
import Mathlib.Tactic.FieldSimp
import Mathlib.Algebra.Order.Field.Power
import Mathlib.Data.Rat.Floor
import Mathlib.Data.Rat.Cast.Order
/-!
# Rounding errors of the date computation
-/

namespace Verif
namespace Flt

theorem abs_ite (x : ℚ) : (if x < 0 then -x else x) = |x| := by
  split
  · next h => rw [abs_of_neg h]
  · next h => rw [abs_of_nonneg (not_lt.mp h)]

theorem ilog2_spec (x : ℚ) (hx : x ≠ 0) : (2 : ℚ) ^ ilog2 x ≤ |x| ∧ |x| < (2 : ℚ) ^ (ilog2 x + 1) := by
  have hn : x.num.natAbs ≠ 0 := by simpa using hx
  have hd : x.den ≠ 0 := x.den_nz
  have habs : |x| = (x.num.natAbs : ℚ) / (x.den : ℚ) := by
    rw [Nat.cast_natAbs, Int.cast_abs]
    conv_lhs => rw [← Rat.num_div_den x]
    rw [abs_div]
    simp
  have hdpos : (0 : ℚ) < x.den := by exact_mod_cast x.den_pos
  have n1 : (2 : ℚ) ^ (Nat.log2 x.num.natAbs : ℤ) ≤ x.num.natAbs := by
    rw [zpow_natCast]; exact_mod_cast Nat.log2_self_le hn
  have n2 : (x.num.natAbs : ℚ) < (2 : ℚ) ^ ((Nat.log2 x.num.natAbs : ℤ) + 1) := by
    rw [← Nat.cast_succ, zpow_natCast]; exact_mod_cast Nat.lt_log2_self
  have d1 : (2 : ℚ) ^ (Nat.log2 x.den : ℤ) ≤ x.den := by
    rw [zpow_natCast]; exact_mod_cast Nat.log2_self_le hd
  have d2 : (x.den : ℚ) < (2 : ℚ) ^ ((Nat.log2 x.den : ℤ) + 1) := by
    rw [← Nat.cast_succ, zpow_natCast]; exact_mod_cast Nat.lt_log2_self
  have two : (2 : ℚ) ≠ 0 := by norm_num
  have upper : |x| < (2 : ℚ) ^ ((Nat.log2 x.num.natAbs : ℤ) - (Nat.log2 x.den : ℤ) + 1) := by
    rw [habs, div_lt_iff₀ hdpos]
    calc (x.num.natAbs : ℚ) < (2 : ℚ) ^ ((Nat.log2 x.num.natAbs : ℤ) + 1) := n2
      _ = (2 : ℚ) ^ ((Nat.log2 x.num.natAbs : ℤ) - (Nat.log2 x.den : ℤ) + 1) *
            (2 : ℚ) ^ (Nat.log2 x.den : ℤ) := by
          rw [← zpow_add₀ two]; congr 1; ring
      _ ≤ _ := by gcongr
  have lower : (2 : ℚ) ^ ((Nat.log2 x.num.natAbs : ℤ) - (Nat.log2 x.den : ℤ) - 1) ≤ |x| := by
    rw [habs, le_div_iff₀ hdpos]
    calc _ ≤ (2 : ℚ) ^ ((Nat.log2 x.num.natAbs : ℤ) - (Nat.log2 x.den : ℤ) - 1) *
            (2 : ℚ) ^ ((Nat.log2 x.den : ℤ) + 1) := by gcongr
      _ = (2 : ℚ) ^ (Nat.log2 x.num.natAbs : ℤ) := by
          rw [← zpow_add₀ two]; congr 1; ring
      _ ≤ _ := n1
  unfold ilog2
  dsimp only
  rw [abs_ite]
  split
  · next h => exact ⟨h, upper⟩
  · next h =>
    refine ⟨lower, ?_⟩
    rw [Int.sub_add_cancel]
    exact not_le.mp h

theorem floor_bounds (x : ℚ) : (x.floor : ℚ) ≤ x ∧ x < (x.floor : ℚ) + 1 := by
  have h1 : (⌊x⌋ : ℤ) = x.floor := rfl
  rw [← h1]
  exact ⟨Int.floor_le x, Int.lt_floor_add_one x⟩

theorem roundEven_err (x : ℚ) : |(roundEven x : ℚ) - x| ≤ 1 / 2 := by
  obtain ⟨h1, h2⟩ := floor_bounds x
  unfold roundEven
  dsimp only
  rw [abs_le]
  split
  · constructor <;> linarith
  · split
    · push_cast; constructor <;> linarith
    · split <;> push_cast <;> constructor <;> linarith

theorem roundEven_int (n : ℤ) : roundEven (n : ℚ) = n := by
  have : ((n : ℚ)).floor = n := by
    have h1 : (⌊(n : ℚ)⌋ : ℤ) = (n : ℚ).floor := rfl
    rw [← h1, Int.floor_intCast]
  unfold roundEven
  dsimp only
  rw [this, if_pos (by rw [sub_self]; norm_num)]

/-- The relative error of rounding to 53 bits. -/
theorem rnd_err (x : ℚ) : |rnd x - x| ≤ |x| / 2 ^ 53 := by
  unfold rnd
  split
  · next h => simp [h]
  · next h =>
    dsimp only
    obtain ⟨h1, -⟩ := ilog2_spec x h
    have two : (2 : ℚ) ≠ 0 := by norm_num
    have hp : (0 : ℚ) < (2 : ℚ) ^ (ilog2 x - 52) := by positivity
    have he := roundEven_err (x / (2 : ℚ) ^ (ilog2 x - 52))
    generalize roundEven (x / (2 : ℚ) ^ (ilog2 x - 52)) = m at he
    have e1 : (m : ℚ) * (2 : ℚ) ^ (ilog2 x - 52) - x =
        ((m : ℚ) - x / (2 : ℚ) ^ (ilog2 x - 52)) * (2 : ℚ) ^ (ilog2 x - 52) := by
      field_simp
    rw [e1, abs_mul, abs_of_pos hp]
    have e2 : (2 : ℚ) ^ ilog2 x = (2 : ℚ) ^ (ilog2 x - 52) * 2 ^ 52 := by
      rw [← zpow_natCast, ← zpow_add₀ two]; congr 1; push_cast; ring
    rw [e2] at h1
    have := mul_le_mul_of_nonneg_right he hp.le
    have h3 : |x| / 2 ^ 53 ≥ 1 / 2 * (2 : ℚ) ^ (ilog2 x - 52) := by
      rw [ge_iff_le, le_div_iff₀ (by positivity)]
      nlinarith
    linarith

/-- Integers below `2 ^ 53` are doubles. -/
theorem rnd_int (n : ℤ) (hn : |(n : ℚ)| < 2 ^ 53) : rnd (n : ℚ) = n := by
  unfold rnd
  split
  · next h => exact h.symm
  · next h =>
    dsimp only
    obtain ⟨h1, -⟩ := ilog2_spec (n : ℚ) h
    have two : (2 : ℚ) ≠ 0 := by norm_num
    have hlt : (2 : ℚ) ^ ilog2 (n : ℚ) < 2 ^ (53 : ℤ) := lt_of_le_of_lt h1 (by exact_mod_cast hn)
    have hlt : ilog2 (n : ℚ) < 53 := (zpow_lt_zpow_iff_right₀ (by norm_num)).mp hlt
    obtain ⟨k, hk⟩ : ∃ k : ℕ, (k : ℤ) = 52 - ilog2 (n : ℚ) :=
      ⟨(52 - ilog2 (n : ℚ)).toNat, Int.toNat_of_nonneg (by omega)⟩
    have e : ilog2 (n : ℚ) - 52 = -(k : ℤ) := by omega
    rw [e, zpow_neg, zpow_natCast, div_inv_eq_mul]
    have : (n : ℚ) * 2 ^ k = ((n * 2 ^ k : ℤ) : ℚ) := by push_cast; rfl
    rw [this, roundEven_int]
    push_cast
    field_simp

theorem trunc_bounds (x : ℚ) : |x - (trunc x : ℚ)| < 1 := by
  unfold trunc
  rw [abs_lt]
  split
  · next h =>
    obtain ⟨h1, h2⟩ := floor_bounds (-x)
    push_cast
    constructor <;> linarith
  · next h =>
    obtain ⟨h1, h2⟩ := floor_bounds x
    constructor <;> linarith

theorem trunc_int (n : ℤ) : trunc (n : ℚ) = n := by
  have hf : ∀ m : ℤ, ((m : ℚ)).floor = m := by
    intro m
    have h1 : (⌊(m : ℚ)⌋ : ℤ) = (m : ℚ).floor := rfl
    rw [← h1, Int.floor_intCast]
  unfold trunc
  split
  · have : -(n : ℚ) = ((-n : ℤ) : ℚ) := by push_cast; rfl
    rw [this, hf]; omega
  · exact hf n

theorem wholeSeconds_int (n : ℤ) : wholeSeconds (n : ℚ) = n := by
  unfold wholeSeconds
  dsimp only
  rw [trunc_int, sub_self, zero_mul]
  have : roundEven (rnd 0) = 0 := by
    have : rnd 0 = ((0 : ℤ) : ℚ) := by simp [rnd]
    rw [this, roundEven_int]
  rw [this]
  simp

/-- The whole seconds are within a second and a microsecond of the float. -/
theorem wholeSeconds_bounds (s : ℚ) :
    (wholeSeconds s : ℚ) ≤ s + 1 / 1000000 ∧ s - 1 / 1000000 < (wholeSeconds s : ℚ) + 1 := by
  have ht := abs_lt.mp (trunc_bounds s)
  have hr := rnd_err ((s - trunc s) * 1000000)
  have hm : |(s - (trunc s : ℚ)) * 1000000| ≤ 1000000 := by
    rw [abs_le]; constructor <;> linarith [ht.1, ht.2]
  have hr2 : |rnd ((s - trunc s) * 1000000) - (s - trunc s) * 1000000| ≤ 1000000 / 2 ^ 53 :=
    hr.trans (by gcongr)
  have he := abs_le.mp (roundEven_err (rnd ((s - trunc s) * 1000000)))
  have hr3 := abs_le.mp hr2
  unfold wholeSeconds
  dsimp only
  generalize roundEven (rnd ((s - trunc s) * 1000000)) = us at he
  generalize rnd ((s - trunc s) * 1000000) = z at he hr3
  generalize trunc s = t at *
  have hb : (1000000 / 2 ^ 53 : ℚ) < 1 / 4 := by norm_num
  split
  · next h =>
    have : (1000000 : ℚ) ≤ us := by exact_mod_cast h
    push_cast
    constructor <;> linarith [he.1, he.2, hr3.1, hr3.2, ht.1, ht.2]
  · next h =>
    have h1 : us ≤ 999999 := by omega
    have h1' : (us : ℚ) ≤ 999999 := by exact_mod_cast h1
    split
    · next h2 =>
      have h3 : us ≤ -1 := by omega
      have h3' : (us : ℚ) ≤ -1 := by exact_mod_cast h3
      push_cast
      constructor <;> linarith [he.1, he.2, hr3.1, hr3.2, ht.1, ht.2]
    · next h2 =>
      have h3 : 0 ≤ us := by omega
      have h3' : (0 : ℚ) ≤ us := by exact_mod_cast h3
      constructor <;> linarith [he.1, he.2, hr3.1, hr3.2, ht.1, ht.2]

/-- Within 30000 years of the epoch the float computation finds the exact UTC day. -/
theorem day_exact (t : ℤ) (h : |t| ≤ 1000000000000000) :
    (wholeSeconds (rnd ((t : ℚ) / 1000))).fdiv 86400 = t.fdiv 86400000 := by
  rw [Int.fdiv_eq_ediv_of_nonneg _ (by decide), Int.fdiv_eq_ediv_of_nonneg _ (by decide)]
  have ha := abs_le.mp h
  have hq1 : (t : ℚ) ≤ 1000000000000000 := by exact_mod_cast ha.2
  have hq2 : (-1000000000000000 : ℚ) ≤ t := by exact_mod_cast ha.1
  by_cases hr : t % 86400000 = 0
  · have e : (t : ℚ) / 1000 = ((t / 1000 : ℤ) : ℚ) := by
      have : t = (t / 1000) * 1000 := by omega
      rw [div_eq_iff (by norm_num)]
      exact_mod_cast this
    have hlt : |((t / 1000 : ℤ) : ℚ)| < 2 ^ 53 := by
      rw [← e, abs_lt]
      constructor
      · rw [lt_div_iff₀ (by norm_num)]; norm_num; linarith
      · rw [div_lt_iff₀ (by norm_num)]; norm_num; linarith
    rw [e, rnd_int _ hlt, wholeSeconds_int]
    omega
  · have hx := abs_le.mp (rnd_err ((t : ℚ) / 1000))
    obtain ⟨w1, w2⟩ := wholeSeconds_bounds (rnd ((t : ℚ) / 1000))
    generalize rnd ((t : ℚ) / 1000) = s at *
    generalize wholeSeconds s = w at *
    have herr : |(t : ℚ) / 1000| / 2 ^ 53 ≤ 1 / 4000 := by
      rw [div_le_iff₀ (by positivity), abs_le]
      constructor <;> linarith
    obtain ⟨D, r, hD, hr0, hr1⟩ : ∃ D r : ℤ, t = 86400000 * D + r ∧ 1 ≤ r ∧ r < 86400000 :=
      ⟨t / 86400000, t % 86400000, by omega, by omega, by omega⟩
    have q1 : (t : ℚ) = 86400000 * D + r := by exact_mod_cast hD
    have q2 : (1 : ℚ) ≤ r := by exact_mod_cast hr0
    have q3 : (r : ℚ) ≤ 86399999 := by
      have : r ≤ 86399999 := by omega
      exact_mod_cast this
    have w3 : (w : ℚ) < ((86400 * D + 86400 : ℤ) : ℚ) := by push_cast; linarith [hx.1, hx.2]
    have w4 : ((86400 * D - 1 : ℤ) : ℚ) < (w : ℚ) := by push_cast; linarith [hx.1, hx.2]
    have w3' : w < 86400 * D + 86400 := by exact_mod_cast w3
    have w4' : 86400 * D - 1 < w := by exact_mod_cast w4
    omega

/-- Later instants are too far away. -/
theorem day_late (t : ℤ) (h : 1000000000000000 < t) :
    10000000 < (wholeSeconds (rnd ((t : ℚ) / 1000))).fdiv 86400 := by
  rw [Int.fdiv_eq_ediv_of_nonneg _ (by decide)]
  have hq : (1000000000000000 : ℚ) < t := by exact_mod_cast h
  have hx := abs_le.mp (rnd_err ((t : ℚ) / 1000))
  obtain ⟨w1, w2⟩ := wholeSeconds_bounds (rnd ((t : ℚ) / 1000))
  generalize rnd ((t : ℚ) / 1000) = s at *
  generalize wholeSeconds s = w at *
  rw [abs_of_pos (by positivity)] at hx
  have : (900000000000 : ℚ) < w := by
    have h1 : (t : ℚ) / 1000 / 2 ^ 53 ≤ (t : ℚ) / 1000 / 1000 := by gcongr; norm_num
    linarith [hx.1]
  have : (900000000000 : ℤ) < w := by exact_mod_cast this
  omega

theorem day_early (t : ℤ) (h : t < -1000000000000000) :
    (wholeSeconds (rnd ((t : ℚ) / 1000))).fdiv 86400 < -10000000 := by
  rw [Int.fdiv_eq_ediv_of_nonneg _ (by decide)]
  have hq : (t : ℚ) < -1000000000000000 := by exact_mod_cast h
  have hx := abs_le.mp (rnd_err ((t : ℚ) / 1000))
  obtain ⟨w1, w2⟩ := wholeSeconds_bounds (rnd ((t : ℚ) / 1000))
  generalize rnd ((t : ℚ) / 1000) = s at *
  generalize wholeSeconds s = w at *
  rw [abs_of_neg (by linarith)] at hx
  have : (w : ℚ) < -900000000000 := by
    have h1 : -((t : ℚ) / 1000) / 2 ^ 53 ≤ -((t : ℚ) / 1000) / 1000 := by
      have : (0 : ℚ) ≤ -((t : ℚ) / 1000) := by linarith
      gcongr; norm_num
    linarith [hx.2]
  have : w < (-900000000000 : ℤ) := by exact_mod_cast this
  omega

end Flt
end Verif

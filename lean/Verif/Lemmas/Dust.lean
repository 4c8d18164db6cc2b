import Verif.Model.Dust
import Mathlib.Tactic.Linarith
import Mathlib.Tactic.Positivity

/-!
# The polynomials of the extinction laws are positive

On their interval the sums are written in Bernstein form, with positive coefficients.
-/

namespace Verif.Dust

open Real

theorem ccm_one {y : ℝ} (h1 : -0.72 ≤ y) (h2 : y ≤ 1.48) :
    0 < (ccmOptical y).1 + (ccmOptical y).2 / 1 := by
  unfold ccmOptical
  dsimp only
  rcases le_total y (19 / 50) with h | h
  · have hs : 0 ≤ y - (-18 / 25) := by norm_num at h1 ⊢; linarith
    have ht : 0 ≤ 19 / 50 - y := by linarith
    have hp : (0 : ℝ) ≤ 113240542935384 / 4757610107421875 * (y - (-18 / 25)) ^ 0 * (19 / 50 - y) ^ 7 +
        361627477863998 / 4757610107421875 * (y - (-18 / 25)) ^ 1 * (19 / 50 - y) ^ 6 +
        37192323550256274 / 4757610107421875 * (y - (-18 / 25)) ^ 2 * (19 / 50 - y) ^ 5 +
        11556351044029093 / 951522021484375 * (y - (-18 / 25)) ^ 3 * (19 / 50 - y) ^ 4 +
        49265136599127887 / 3806088085937500 * (y - (-18 / 25)) ^ 4 * (19 / 50 - y) ^ 3 +
        209295286448391731 / 19030440429687500 * (y - (-18 / 25)) ^ 5 * (19 / 50 - y) ^ 2 +
        48785825413813971 / 9515220214843750 * (y - (-18 / 25)) ^ 6 * (19 / 50 - y) ^ 1 +
        142053015089132283 / 152243523437500000 * (y - (-18 / 25)) ^ 7 * (19 / 50 - y) ^ 0 := by positivity
    nlinarith [hp]
  · have hs : 0 ≤ y - (19 / 50) := by linarith
    have ht : 0 ≤ 37 / 25 - y := by norm_num at h2 ⊢; linarith
    have hp : (0 : ℝ) ≤ 142053015089132283 / 152243523437500000 * (y - (19 / 50)) ^ 0 * (37 / 25 - y) ^ 7 +
        604084502313414213 / 76121761718750000 * (y - (19 / 50)) ^ 1 * (37 / 25 - y) ^ 6 +
        1059984269905490797 / 38060880859375000 * (y - (19 / 50)) ^ 2 * (37 / 25 - y) ^ 5 +
        48209182997511563 / 951522021484375 * (y - (19 / 50)) ^ 3 * (37 / 25 - y) ^ 4 +
        96457993866992471 / 1903044042968750 * (y - (19 / 50)) ^ 4 * (37 / 25 - y) ^ 3 +
        146264105978715949 / 4757610107421875 * (y - (19 / 50)) ^ 5 * (37 / 25 - y) ^ 2 +
        65576632443014368 / 4757610107421875 * (y - (19 / 50)) ^ 6 * (37 / 25 - y) ^ 1 +
        10219968691989404 / 4757610107421875 * (y - (19 / 50)) ^ 7 * (37 / 25 - y) ^ 0 := by positivity
    nlinarith [hp]

theorem ccm_eight {y : ℝ} (h1 : -0.72 ≤ y) (h2 : y ≤ 1.48) :
    0 < (ccmOptical y).1 + (ccmOptical y).2 / 8 := by
  unfold ccmOptical
  dsimp only
  have hs : 0 ≤ y - (-18 / 25) := by norm_num at h1 ⊢; linarith
  have ht : 0 ≤ 37 / 25 - y := by norm_num at h2 ⊢; linarith
  have hp : (0 : ℝ) ≤ 71084739538683 / 30448704687500000 * (y - (-18 / 25)) ^ 0 * (37 / 25 - y) ^ 7 +
      2944423826459259 / 121794818750000000 * (y - (-18 / 25)) ^ 1 * (37 / 25 - y) ^ 6 +
      19497957322636139 / 243589637500000000 * (y - (-18 / 25)) ^ 2 * (37 / 25 - y) ^ 5 +
      513705423825513 / 3044870468750000 * (y - (-18 / 25)) ^ 3 * (37 / 25 - y) ^ 4 +
      3260132649805439 / 24358963750000000 * (y - (-18 / 25)) ^ 4 * (37 / 25 - y) ^ 3 +
      29009378280083669 / 243589637500000000 * (y - (-18 / 25)) ^ 5 * (37 / 25 - y) ^ 2 +
      7651153978332493 / 243589637500000000 * (y - (-18 / 25)) ^ 6 * (37 / 25 - y) ^ 1 +
      1068198583945509 / 243589637500000000 * (y - (-18 / 25)) ^ 7 * (37 / 25 - y) ^ 0 := by positivity
  nlinarith [hp]

theorem od_one {y : ℝ} (h1 : -0.72 ≤ y) (h2 : y ≤ 1.48) :
    0 < (odOptical y).1 + (odOptical y).2 / 1 := by
  unfold odOptical
  dsimp only
  rcases le_total y (19 / 50) with h | h
  · have hs : 0 ≤ y - (-18 / 25) := by norm_num at h1 ⊢; linarith
    have ht : 0 ≤ 19 / 50 - y := by linarith
    have hp : (0 : ℝ) ≤ 226012860788544 / 10466742236328125 * (y - (-18 / 25)) ^ 0 * (19 / 50 - y) ^ 8 +
        943697521494592 / 10466742236328125 * (y - (-18 / 25)) ^ 1 * (19 / 50 - y) ^ 7 +
        119472114206258712 / 10466742236328125 * (y - (-18 / 25)) ^ 2 * (19 / 50 - y) ^ 6 +
        146407575605216304 / 10466742236328125 * (y - (-18 / 25)) ^ 3 * (19 / 50 - y) ^ 5 +
        32690442748622696 / 2093348447265625 * (y - (-18 / 25)) ^ 4 * (19 / 50 - y) ^ 4 +
        223012849645862864 / 10466742236328125 * (y - (-18 / 25)) ^ 5 * (19 / 50 - y) ^ 3 +
        170254313933091022 / 10466742236328125 * (y - (-18 / 25)) ^ 6 * (19 / 50 - y) ^ 2 +
        124744361842900539 / 20933484472656250 * (y - (-18 / 25)) ^ 7 * (19 / 50 - y) ^ 1 +
        36312521545667211 / 41866968945312500 * (y - (-18 / 25)) ^ 8 * (19 / 50 - y) ^ 0 := by positivity
    nlinarith [hp]
  · have hs : 0 ≤ y - (19 / 50) := by linarith
    have ht : 0 ≤ 37 / 25 - y := by norm_num at h2 ⊢; linarith
    have hp : (0 : ℝ) ≤ 36312521545667211 / 41866968945312500 * (y - (19 / 50)) ^ 0 * (37 / 25 - y) ^ 8 +
        165755810522437149 / 20933484472656250 * (y - (19 / 50)) ^ 1 * (37 / 25 - y) ^ 7 +
        313794384311469157 / 10466742236328125 * (y - (19 / 50)) ^ 2 * (37 / 25 - y) ^ 6 +
        647778133264134394 / 10466742236328125 * (y - (19 / 50)) ^ 3 * (37 / 25 - y) ^ 5 +
        170375585610137956 / 2093348447265625 * (y - (19 / 50)) ^ 4 * (37 / 25 - y) ^ 4 +
        820974714246500104 / 10466742236328125 * (y - (19 / 50)) ^ 5 * (37 / 25 - y) ^ 3 +
        537791235926829992 / 10466742236328125 * (y - (19 / 50)) ^ 6 * (37 / 25 - y) ^ 2 +
        151593458186108352 / 10466742236328125 * (y - (19 / 50)) ^ 7 * (37 / 25 - y) ^ 1 +
        20429013718200224 / 10466742236328125 * (y - (19 / 50)) ^ 8 * (37 / 25 - y) ^ 0 := by positivity
    nlinarith [hp]

theorem od_eight {y : ℝ} (h1 : -0.72 ≤ y) (h2 : y ≤ 1.48) :
    0 < (odOptical y).1 + (odOptical y).2 / 8 := by
  unfold odOptical
  dsimp only
  have hs : 0 ≤ y - (-18 / 25) := by norm_num at h1 ⊢; linarith
  have ht : 0 ≤ 37 / 25 - y := by norm_num at h2 ⊢; linarith
  have hp : (0 : ℝ) ≤ 88849349162379 / 83733937890625000 * (y - (-18 / 25)) ^ 0 * (37 / 25 - y) ^ 8 +
      2017079436403299 / 167467875781250000 * (y - (-18 / 25)) ^ 1 * (37 / 25 - y) ^ 7 +
      14958514903472663 / 334935751562500000 * (y - (-18 / 25)) ^ 2 * (37 / 25 - y) ^ 6 +
      87130216921051757 / 669871503125000000 * (y - (-18 / 25)) ^ 3 * (37 / 25 - y) ^ 5 +
      6891650801299289 / 66987150312500000 * (y - (-18 / 25)) ^ 4 * (37 / 25 - y) ^ 4 +
      23611358013025173 / 167467875781250000 * (y - (-18 / 25)) ^ 5 * (37 / 25 - y) ^ 3 +
      41691112764077261 / 669871503125000000 * (y - (-18 / 25)) ^ 6 * (37 / 25 - y) ^ 2 +
      5470197606832593 / 334935751562500000 * (y - (-18 / 25)) ^ 7 * (37 / 25 - y) ^ 1 +
      1321297596913197 / 669871503125000000 * (y - (-18 / 25)) ^ 8 * (37 / 25 - y) ^ 0 := by positivity
  nlinarith [hp]

theorem infrared_pos {x u : ℝ} (hx : 0 < x) (h0 : 0 < u) (h1 : u ≤ 1) :
    0 < (infrared x).1 + (infrared x).2 * u := by
  unfold infrared
  dsimp only
  have hp : 0 < x ^ (1.61 : ℝ) := rpow_pos_of_pos hx _
  generalize x ^ (1.61 : ℝ) = p at hp
  nlinarith

theorem ultraviolet_pos {y u : ℝ} (h1 : 3.3 ≤ y) (h2 : y ≤ 8) (hu : 1 / 8 ≤ u) :
    0.3 < (ultraviolet y).1 + (ultraviolet y).2 * u ∧ 0 < (ultraviolet y).2 := by
  unfold ultraviolet
  dsimp only
  have e1 : 0.104 / ((y - 4.67) ^ 2 + 0.341) ≤ 0.306 := by
    rw [div_le_iff₀ (by positivity)]
    nlinarith [sq_nonneg (y - 4.67)]
  have e2 : 0 ≤ 1.206 / ((y - 4.62) ^ 2 + 0.263) := by positivity
  have e3 : 0 < -3.090 + 1.825 * y + 1.206 / ((y - 4.62) ^ 2 + 0.263) := by
    norm_num at h1 e2 ⊢; linarith
  have e4 : (-3.090 + 1.825 * y + 1.206 / ((y - 4.62) ^ 2 + 0.263)) * (1 / 8) ≤
      (-3.090 + 1.825 * y + 1.206 / ((y - 4.62) ^ 2 + 0.263)) * u :=
    mul_le_mul_of_nonneg_left hu e3.le
  refine ⟨?_, e3⟩
  generalize 0.104 / ((y - 4.67) ^ 2 + 0.341) = p at e1
  generalize 1.206 / ((y - 4.62) ^ 2 + 0.263) = q at e2 e4
  norm_num at h1 e1 e4 ⊢
  linarith

theorem ultraviolet2_pos {y u : ℝ} (h1 : 5.9 ≤ y) (h2 : y ≤ 8) (hu : 1 / 8 ≤ u) :
    0 < (ultraviolet2 y).1 + (ultraviolet2 y).2 * u := by
  obtain ⟨h3, -⟩ := ultraviolet_pos (y := y) (by norm_num at h1 ⊢; linarith) h2 hu
  unfold ultraviolet2
  dsimp only
  have ht : 0 ≤ y - 5.9 := by linarith
  have ht2 : y - 5.9 ≤ 2.1 := by norm_num at *; linarith
  generalize y - 5.9 = t at *
  have q0 : 0 ≤ t ^ 2 := by positivity
  have q1 : 0 ≤ t ^ 3 := by positivity
  have q2 : t ^ 2 ≤ 2.1 ^ 2 := by gcongr
  have q3 : (0.2130 * t ^ 2 + 0.1207 * t ^ 3) * (1 / 8) ≤ (0.2130 * t ^ 2 + 0.1207 * t ^ 3) * u :=
    mul_le_mul_of_nonneg_left hu (by positivity)
  nlinarith

theorem farUv_pos {y u : ℝ} (h1 : 0 ≤ y) (h2 : y ≤ 3) (hu : 1 / 8 ≤ u) :
    0 < (farUv y).1 + (farUv y).2 * u := by
  unfold farUv
  dsimp only
  have q0 : 0 ≤ y ^ 3 := by positivity
  have q1 : y ^ 2 ≤ 3 ^ 2 := by gcongr
  have q3 : (13.670 + 4.257 * y - 0.420 * y ^ 2 + 0.374 * y ^ 3) * (1 / 8) ≤
      (13.670 + 4.257 * y - 0.420 * y ^ 2 + 0.374 * y ^ 3) * u :=
    mul_le_mul_of_nonneg_left hu (by nlinarith)
  have q4 : y ^ 3 ≤ 9 * y := by nlinarith
  have q5 : 0 ≤ y ^ 2 := by positivity
  nlinarith

theorem between {a b u : ℝ} (h1 : 0 < a + b / 1) (h2 : 0 < a + b / 8) (h3 : 1 / 8 ≤ u) (h4 : u ≤ 1) :
    0 < a + b * u := by
  rw [div_one] at h1
  rcases le_total 0 b with h | h
  · nlinarith
  · nlinarith

end Verif.Dust

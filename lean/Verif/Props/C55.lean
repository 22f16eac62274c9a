import Verif.Lemmas.QerfiAccuracy
import Verif.Props.C54

/-! C55: how far `qerfi` is from the exact normal deviate, and the round trip through `qerf`. -/

namespace Itm.Props

open Itm Spec

theorem qerfi_single (q : ℝ) : qerfi [q] =
    .ok [PyNum.round4 (if 0.5 - q < 0 then -devt (clipq q) else devt (clipq q))] := by
  unfold qerfi
  rw [List.mapM_cons, qerfi1_eq, ok_bind, List.mapM_nil, pure_ok, ok_bind, pure_ok]

theorem clipq_low {q : ℝ} (h1 : 0.000001 ≤ q) (h2 : q ≤ 1 / 2) : clipq q = q := by
  unfold clipq
  rw [abs_of_nonneg (by linarith), max_eq_left] <;> linarith

theorem clipq_high {q : ℝ} (h1 : 1 / 2 ≤ q) (h2 : q ≤ 1 - 0.000001) : clipq q = 1 - q := by
  unfold clipq
  rw [abs_of_nonpos (by linarith), max_eq_left] <;> linarith

/-- For every `x` whose tail probability is at least `1e-6` on both sides, `qerfi` asked for that probability answers
`x` up to `0.0051`, the rounding to four digits included. -/
theorem C55_qerfi_accuracy (x : ℝ) (h1 : 0.000001 ≤ normalTail x) (h2 : normalTail x ≤ 1 - 0.000001) :
    ∃ v, qerfi [normalTail x] = .ok [v] ∧ |v - x| ≤ 0.0051 := by
  rw [qerfi_single]
  refine ⟨_, rfl, ?_⟩
  have key : |(if 0.5 - normalTail x < 0 then -devt (clipq (normalTail x)) else devt (clipq (normalTail x))) - x|
      ≤ 0.005 := by
    split_ifs with h
    · rw [clipq_high (by linarith) h2]
      have hx : normalTail (-x) = 1 - normalTail x := normalTail_compl x
      have := devt_near (q := 1 - normalTail x) (by linarith) (by linarith) hx
      rw [abs_le] at this ⊢
      constructor <;> linarith [this.1, this.2]
    · rw [clipq_low h1 (by linarith)]
      exact devt_near h1 (by linarith) rfl
  have hr := round4_near (if 0.5 - normalTail x < 0 then -devt (clipq (normalTail x)) else devt (clipq (normalTail x)))
  rw [abs_le] at key hr ⊢
  constructor <;> linarith [key.1, key.2, hr.1, hr.2]

/-- The same for whole lists of levels. -/
theorem C55_qerfi_accuracy_list (xs : List ℝ)
    (h : ∀ x ∈ xs, 0.000001 ≤ normalTail x ∧ normalTail x ≤ 1 - 0.000001) :
    ∃ vs, qerfi (xs.map normalTail) = .ok vs ∧ List.Forall₂ (fun v x => |v - x| ≤ 0.0051) vs xs := by
  induction xs with
  | nil => exact ⟨[], rfl, List.Forall₂.nil⟩
  | cons x xs ih =>
    obtain ⟨vs, e, hf⟩ := ih (fun y hy => h y (List.mem_cons_of_mem _ hy))
    obtain ⟨v, ev, hv⟩ := C55_qerfi_accuracy x (h x List.mem_cons_self).1 (h x List.mem_cons_self).2
    refine ⟨v :: vs, ?_, List.Forall₂.cons hv hf⟩
    have e1 : qerfi1 (normalTail x) = .ok v := by
      rw [qerfi_single] at ev
      rw [qerfi1_eq]
      have := ok_inj.1 ev
      rw [List.cons.inj this |>.1]
    have e2 : (xs.map normalTail).mapM qerfi1 = .ok vs := e
    unfold qerfi
    rw [List.map_cons, List.mapM_cons, e1, ok_bind, e2, ok_bind, pure_ok]

theorem normalTail_lip {a b : ℝ} (h : a ≤ b) : normalTail a - normalTail b ≤ 0.4 * (b - a) := by
  have hm : Monotone (fun x => normalTail x + 0.4 * x) := by
    apply monotone_of_deriv_nonneg
    · exact fun x => ((normalTail_hasDeriv x).add ((hasDerivAt_id' x).const_mul 0.4)).differentiableAt
    · intro x
      have hd := (normalTail_hasDeriv x).add ((hasDerivAt_id' x).const_mul (0.4 : ℝ))
      have e : deriv (fun x => normalTail x + 0.4 * x) x = -phi x + 0.4 * 1 := hd.deriv
      rw [e]
      have h1 := phi_le x
      have h2 : Real.exp (-x ^ 2 / 2) ≤ 1 := Real.exp_le_one_iff.2 (by nlinarith [sq_nonneg x])
      linarith
  have := hm h
  dsimp only at this
  linarith

theorem devt_bracket {q : ℝ} (h1 : 0.000001 ≤ q) (h2 : q ≤ 1 / 2) :
    normalTail (devt q + 0.005) ≤ q ∧ q ≤ normalTail (devt q - 0.005) := by
  have hq : 0 < q := lt_of_lt_of_le (by norm_num) h1
  have l1 := Real.log_two_gt_d9
  have hlog : Real.log q ≤ -Real.log 2 := by
    rw [← Real.log_inv]; exact Real.log_le_log hq (by linarith)
  have r1 : √(2 * Real.log 2) ≤ √(-2 * Real.log q) := Real.sqrt_le_sqrt (by linarith)
  have hlo : -Real.log 1000000 ≤ Real.log q := by
    rw [← Real.log_inv]; exact Real.log_le_log (by norm_num) (by norm_num at *; linarith)
  have r2 : √(-2 * Real.log q) ≤ 5.26 := by
    rw [Real.sqrt_le_iff]; have := log_million; norm_num at *; linarith
  have hexp : Real.exp (-√(-2 * Real.log q) ^ 2 / 2) = q := by
    rw [Real.sq_sqrt (by linarith), show -(-2 * Real.log q) / 2 = Real.log q by ring, Real.exp_log hq]
  have u := bracket_up r1 r2
  have l := bracket_lo r1 r2
  rw [hexp] at u l
  exact ⟨u, l⟩

/-- Round trip: the tail probability of the deviate of a level is that level up to `0.0021`, for every level in `[0, 1]`,
also where the level is clipped. -/
theorem C55_round_trip (q : ℝ) (h0 : 0 ≤ q) (h1 : q ≤ 1) :
    ∃ v w, qerfi [q] = .ok [v] ∧ qerf v = .ok w ∧ |w - q| ≤ 0.0021 := by
  rw [qerfi_single]
  obtain ⟨w, ew, hw⟩ := C54_qerf_accuracy
    (PyNum.round4 (if 0.5 - q < 0 then -devt (clipq q) else devt (clipq q)))
  refine ⟨_, w, rfl, ew, ?_⟩
  have hc0 : 0.000001 ≤ clipq q := le_max_right _ _
  have hb := devt_bracket hc0 (clipq_le_half q)
  have hr := round4_near (if 0.5 - q < 0 then -devt (clipq q) else devt (clipq q))
  have hsum : ∀ v : ℝ, |v - devt (clipq q)| ≤ 0.00005 → |normalTail v - clipq q| ≤ 0.00203 := by
    intro v hv
    rw [abs_le] at hv
    have a1 := normalTail_lip (show v ≤ devt (clipq q) + 0.005 by linarith [hv.2])
    have a2 := normalTail_lip (show devt (clipq q) - 0.005 ≤ v by linarith [hv.1])
    rw [abs_le]
    constructor <;> linarith [hv.1, hv.2, hb.1, hb.2]
  obtain ⟨v, ev⟩ : ∃ v : ℝ, v = PyNum.round4 (if 0.5 - q < 0 then -devt (clipq q) else devt (clipq q)) := ⟨_, rfl⟩
  rw [← ev] at hw hr
  split_ifs at hr with h
  · have hc : |1 - clipq q - q| ≤ 0.000001 := by
      unfold clipq
      rw [abs_of_neg h]
      rcases max_cases (0.5 - -(0.5 - q)) (0.000001 : ℝ) with ⟨e, g⟩ | ⟨e, g⟩ <;> rw [e, abs_le] <;> constructor <;>
        linarith
    have hs := hsum (-v) (by rw [abs_le] at hr ⊢; constructor <;> linarith [hr.1, hr.2])
    rw [normalTail_compl] at hs
    rw [abs_le] at hs hw hc ⊢
    constructor <;> linarith [hs.1, hs.2, hw.1, hw.2, hc.1, hc.2]
  · have hc : |clipq q - q| ≤ 0.000001 := by
      unfold clipq
      rw [abs_of_nonneg (show 0 ≤ 0.5 - q by linarith)]
      rcases max_cases (0.5 - (0.5 - q)) (0.000001 : ℝ) with ⟨e, g⟩ | ⟨e, g⟩ <;> rw [e, abs_le] <;> constructor <;>
        linarith
    have hs := hsum v hr
    rw [abs_le] at hs hw hc ⊢
    constructor <;> linarith [hs.1, hs.2, hw.1, hw.2, hc.1, hc.2]

/-- Three deviations on either side are inside the range of the accuracy theorem. -/
example : 0.000001 ≤ normalTail 3 ∧ normalTail 3 ≤ 1 - 0.000001 := by
  have h1 := normalTail_three
  have h2 := tail_cfrac_lower (x := 3) (by norm_num)
  have h3 : 0.000001 ≤ phi 3 * 0.3 := by
    unfold phi
    have e : Real.exp (-(3 : ℝ) ^ 2 / 2) = (Real.exp 1 ^ (9 / 2 : ℝ))⁻¹ := by
      rw [← Real.exp_mul, ← Real.exp_neg]; norm_num
    have hs := rsqrt_two_pi
    have hE : (0.006 : ℝ) ≤ Real.exp (-(3 : ℝ) ^ 2 / 2) := by
      have h9 := Real.exp_one_lt_d9
      have e2 : Real.exp (-(3 : ℝ) ^ 2 / 2) * Real.exp 1 ^ 5 = Real.exp (1 / 2) := by
        rw [← Real.exp_nat_mul, ← Real.exp_add]; norm_num
      have h5 : Real.exp 1 ^ 5 ≤ 3 ^ 5 := pow_le_pow_left₀ (Real.exp_pos 1).le (by linarith) 5
      have h1' : (1.5 : ℝ) ≤ Real.exp (1 / 2) := by
        have := Real.add_one_le_exp (1 / 2 : ℝ); linarith
      by_contra hc
      push Not at hc
      have hpos := Real.exp_pos (-(3 : ℝ) ^ 2 / 2)
      have hpos5 : 0 < Real.exp 1 ^ 5 := by positivity
      generalize Real.exp (-(3 : ℝ) ^ 2 / 2) = a at *
      generalize Real.exp 1 ^ 5 = b at *
      generalize Real.exp (1 / 2) = c at *
      nlinarith
    have hq : (0.3 : ℝ) ≤ (√(2 * Real.pi))⁻¹ := by
      have h0 : 0 < √(2 * Real.pi) := by have := Real.pi_pos; positivity
      rw [abs_le] at hs
      rw [le_inv_comm₀ (by norm_num) h0]
      linarith [hs.2]
    calc (0.000001 : ℝ) ≤ 0.3 * 0.006 * 0.3 := by norm_num
      _ ≤ _ := by
        apply mul_le_mul_of_nonneg_right _ (by norm_num)
        exact mul_le_mul hq hE (by norm_num) (by positivity)
  have h4 : phi 3 * 0.3 ≤ phi 3 * ((33 * 3 + 14 * 3 ^ 3 + 3 ^ 5) / (15 + 45 * 3 ^ 2 + 15 * 3 ^ 4 + 3 ^ 6)) :=
    mul_le_mul_of_nonneg_left (by norm_num) (phi_pos 3).le
  constructor <;> linarith

example : (0 : ℝ) ≤ 0.1 ∧ (0.1 : ℝ) ≤ 1 := by norm_num

end Itm.Props

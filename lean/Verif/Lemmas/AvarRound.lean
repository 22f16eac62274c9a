import Verif.Spec.RoundVar
import Verif.Lemmas.NearRel
import Verif.Lemmas.AvarReal

/-! The variability formula in rounding arithmetic. -/

namespace Itm
open Itm.Spec
variable {α : Type} [PyNum α] {R : Rounding α} {zd : α} {v : VarC α}

theorem sgtOf_round (hv : VarSized R zd v) {zt : α} (hz : R.fin zt) :
    ∃ s, sgtOf zd v zt = .ok s ∧ NR R s (sgtR (R.val zd) (valC R v) (R.val zt)) 1500 2.2e-15 1e-99 := by
  obtain ⟨f0, v0⟩ := fin_zero R
  unfold sgtOf sgtR
  by_cases h : zt < 0.0
  · rw [if_pos h]
    rw [R.lt _ _ hz f0, v0] at h
    rw [if_pos h]
    exact ⟨_, rfl, (NR.self hv.fsgtm (hv.sgtm.trans (by norm_num))).mono (by norm_num) (by norm_num)⟩
  · rw [if_neg h]
    rw [R.lt _ _ hz f0, v0] at h
    rw [if_neg h]
    by_cases h2 : zt ≤ zd
    · rw [if_pos h2]
      rw [R.le _ _ hz hv.finzd] at h2
      rw [if_pos h2]
      exact ⟨_, rfl, (NR.self hv.fsgtp (hv.sgtp.trans (by norm_num))).mono (by norm_num) (by norm_num)⟩
    · rw [if_neg h2]
      rw [R.le _ _ hz hv.finzd] at h2
      rw [if_neg h2]
      push Not at h2
      have hzd := hv.zdb
      have hztp : 0 < R.val zt := by linarith
      have hsd := hv.sgtd
      have htg := hv.tgtd
      rw [pyDiv_round hz hztp.ne', ok_bind, pure_ok]
      refine ⟨_, rfl, ?_⟩
      have hq : |R.val v.tgtd / R.val zt| ≤ R.val v.sgtd / 2 := by
        rw [abs_div, abs_of_pos hztp, div_le_iff₀ hztp]
        nlinarith
      have hqM : |R.val v.tgtd / R.val zt| ≤ 500 := by linarith
      obtain ⟨fq, vq⟩ := R.div _ _ hv.ftgtd hz hztp.ne' (le_roundBig (hqM.trans (by norm_num)))
      have eq := Near.rnd_err R (le_refl |R.val v.tgtd / R.val zt|) (hqM.trans (by norm_num))
      rw [← vq] at eq
      change NR R _ (R.val v.sgtd + R.val v.tgtd / R.val zt) _ _ _
      generalize R.val v.tgtd / R.val zt = q at *
      generalize v.tgtd / zt = qa at *
      have hx : R.val v.sgtd / 2 ≤ R.val v.sgtd + q := by have := (abs_le.1 hq).1; linarith
      have hx0 : 0 ≤ R.val v.sgtd + q := by linarith
      have hxa : |R.val v.sgtd + q| = R.val v.sgtd + q := abs_of_nonneg hx0
      have he : |R.val v.sgtd + R.val qa - (R.val v.sgtd + q)| ≤ 1e-15 * |R.val v.sgtd + q| + 1e-100 := by
        rw [show R.val v.sgtd + R.val qa - (R.val v.sgtd + q) = R.val qa - q by ring, hxa]
        refine eq.trans ?_
        have : (1e-15 : ℝ) * |q| ≤ 1e-15 * (R.val v.sgtd + q) := mul_le_mul_of_nonneg_left (hq.trans hx) (by norm_num)
        linarith
      have hb : |R.val v.sgtd + q| ≤ 1500 := by rw [hxa]; have := (abs_le.1 hqM).2; linarith
      obtain ⟨fs, vs⟩ := R.add _ _ hv.fsgtd fq (le_roundBig (by
        have h1 := abs_sub_abs_le_abs_sub (R.val v.sgtd + R.val qa) (R.val v.sgtd + q)
        norm_num at *
        linarith))
      exact NR.of_rnd fs vs he hb (by norm_num) (by norm_num) (by norm_num) (by norm_num) (by norm_num)

theorem vsOf_round (hv : VarSized R zd v) {zt zl zc s : α} {S : ℝ} (hs : NR R s S 1500 2.2e-15 1e-99)
    (ht : R.fin zt) (ht' : |R.val zt| ≤ 10) (hl : R.fin zl) (hl' : |R.val zl| ≤ 10) (hc : R.fin zc) (hc' : |R.val zc| ≤ 10) :
    ∃ w, vsOf v s zt zl zc = .ok w ∧
      NP R w (vsR (valC R v) (S * R.val zt) ((valC R v).sgl * R.val zl) (R.val zc)) 3e7 1.42e-14 4e-93 := by
  have nzt := NR.self ht ht'
  have nzl := NR.self hl hl'
  have nzc := NR.self hc hc'
  have nsl := NR.self hv.fsgl hv.sgl
  have c2 := NP.sq nzc (Z := 100) (r' := 1.1e-15) (t' := 2e-100) (by norm_num) (by norm_num) (by norm_num) (by norm_num) (by norm_num)
    (by norm_num) (by norm_num)
  have n78 : NP R (7.8 : α) (7.8 : ℝ) 8 1.1e-15 2e-100 := by
    have h := (NR.lit (X := 8) R (m := 78) (s := true) (k := 1) (by norm_num [abs_of_nonneg]) (by norm_num)).mono (r' := 1.1e-15) (t' := 2e-100)
      (by norm_num) (by norm_num)
    refine ⟨h, by norm_num, ?_⟩
    have := (abs_le.1 h.err).1
    norm_num [abs_of_nonneg] at *; linarith
  have n24 : NP R (24.0 : α) (24 : ℝ) 24 1.1e-15 2e-100 := by
    have h := Near.lit_int R (m := 240) (s := true) (k := 1) 24 (by norm_num) (by norm_num)
    have h2 : R.val (24.0 : α) = 24 := h.2.trans (by norm_num)
    exact ⟨(NR.of_eq h.1 h2 (by norm_num)).mono (by norm_num) (by norm_num), by norm_num, by rw [h2]; norm_num⟩
  have d1 := n78.add c2 (Z := 108) (r' := 2.2e-15) (t' := 6e-100) (by norm_num) (by norm_num) (by norm_num) (by norm_num) (by norm_num)
    (by norm_num) (by norm_num) (by norm_num)
  have d2 := n24.add c2 (Z := 124) (r' := 2.2e-15) (t' := 6e-100) (by norm_num) (by norm_num) (by norm_num) (by norm_num) (by norm_num)
    (by norm_num) (by norm_num) (by norm_num)
  have T := hs.mul nzt (Z := 15000) (r' := 3.3e-15) (t' := 1e-97) (by norm_num) (by norm_num) (by norm_num) (by norm_num) (by norm_num)
    (by norm_num) (by norm_num) (by norm_num)
  have T2 := NP.sq T (Z := 225000000) (r' := 7.7e-15) (t' := 1e-92) (by norm_num) (by norm_num) (by norm_num) (by norm_num) (by norm_num)
    (by norm_num) (by norm_num)
  have L := nsl.mul nzl (Z := 1000) (r' := 1.1e-15) (t' := 2e-100) (by norm_num) (by norm_num) (by norm_num) (by norm_num) (by norm_num)
    (by norm_num) (by norm_num) (by norm_num)
  have L2 := NP.sq L (Z := 1000000) (r' := 3.4e-15) (t' := 1e-96) (by norm_num) (by norm_num) (by norm_num) (by norm_num) (by norm_num)
    (by norm_num) (by norm_num)
  have hz2 := sq_nonneg (R.val zc)
  obtain ⟨e1, q1⟩ := T2.div d1.toNR (m := 7.8) (w := 2.3e-15) (Z := 2.89e7) (r' := 1.2e-14) (t' := 2e-93) (by norm_num) (by linarith)
    (by norm_num) (by norm_num) (by norm_num) (by norm_num) (by norm_num) (by norm_num) (by norm_num) (by norm_num) (by norm_num)
    (by norm_num)
  obtain ⟨e2, q2⟩ := L2.div d2.toNR (m := 24) (w := 2.3e-15) (Z := 42000) (r' := 1.2e-14) (t' := 1e-97) (by norm_num) (by linarith)
    (by norm_num) (by norm_num) (by norm_num) (by norm_num) (by norm_num) (by norm_num) (by norm_num) (by norm_num) (by norm_num)
    (by norm_num)
  have v0 : NP R v.vs0 (R.val v.vs0) 100 1.2e-14 0 :=
    ⟨(NR.self hv.fvs0 (by rw [abs_of_nonneg hv.vs0.1]; exact hv.vs0.2)).mono (by norm_num) le_rfl, hv.vs0.1, hv.vs0.1⟩
  have s1 := v0.add q1 (Z := 2.8901e7) (r' := 1.31e-14) (t' := 3e-93) (by norm_num) (by norm_num) (by norm_num) (by norm_num) (by norm_num)
    (by norm_num) (by norm_num) (by norm_num)
  have s2 := s1.add q2 (Z := 3e7) (r' := 1.42e-14) (t' := 4e-93) (by norm_num) (by norm_num) (by norm_num) (by norm_num) (by norm_num)
    (by norm_num) (by norm_num) (by norm_num)
  unfold vsOf
  rw [e1, ok_bind, e2, ok_bind, pure_ok]
  exact ⟨_, rfl, s2⟩

theorem softR_lip (x y : ℝ) : |softR x - softR y| ≤ |x - y| := by
  have key : ∀ a b : ℝ, a ≤ b → softR b - softR a ≤ b - a := by
    intro a b h
    have hneg : ∀ c : ℝ, c < 0 → softR c = c + 9 * c ^ 2 / (29 - 10 * c) := by
      intro c hc
      have : 29 - 10 * c ≠ 0 := by linarith
      unfold softR
      rw [if_pos hc, eq_comm, show c + 9 * c ^ 2 / (29 - 10 * c) = (c * (29 - 10 * c) + 9 * c ^ 2) / (29 - 10 * c) by rw [add_div, mul_div_cancel_right₀ _ this]]
      congr 1
      ring
    by_cases hb : b < 0
    · have ha : a < 0 := by linarith
      rw [hneg a ha, hneg b hb]
      have : 9 * b ^ 2 / (29 - 10 * b) ≤ 9 * a ^ 2 / (29 - 10 * a) := by
        rw [div_le_div_iff₀ (by linarith) (by linarith)]
        have h1 : 0 ≤ (b - a) * (a * b) := mul_nonneg (by linarith) (mul_nonneg_of_nonpos_of_nonpos ha.le hb.le)
        nlinarith
      linarith
    · have eb : softR b = b := by unfold softR; rw [if_neg hb]
      by_cases ha : a < 0
      · rw [hneg a ha, eb]
        have : 0 ≤ 9 * a ^ 2 / (29 - 10 * a) := div_nonneg (by positivity) (by linarith)
        linarith
      · have ea : softR a = a := by unfold softR; rw [if_neg ha]
        rw [ea, eb]
  rcases le_total x y with h | h
  · have h1 := key x y h
    have h2 := softR_mono h
    rw [abs_sub_comm, abs_sub_comm x y, abs_of_nonneg (by linarith), abs_of_nonneg (by linarith)]
    exact h1
  · have h1 := key y x h
    have h2 := softR_mono h
    rw [abs_of_nonneg (by linarith), abs_of_nonneg (by linarith)]
    exact h1

/-- Softening in rounding arithmetic. -/
theorem soften_round {a : α} {A e : ℝ} (ha : Near R a A e) (hA : |A| ≤ 1.8e5) (he : e ≤ 1) :
    ∃ w, soften a = .ok w ∧ Near R w (softR A) (e + 1.1e-9) := by
  obtain ⟨f0, v0⟩ := fin_zero R
  have hlip := softR_lip (R.val a) A
  unfold soften
  have hva : |R.val a| ≤ 1.9e5 := ha.abs_val.trans (by norm_num at *; linarith)
  by_cases h : a < 0.0
  · rw [if_pos h]
    rw [R.lt _ _ ha.fin f0, v0] at h
    obtain ⟨f29, v29⟩ := Near.lit_int R (m := 290) (s := true) (k := 1) 29 (by norm_num) (by norm_num)
    obtain ⟨f10, v10⟩ := Near.lit_int R (m := 100) (s := true) (k := 1) 10 (by norm_num) (by norm_num)
    have v29' : R.val (29.0 : α) = 29 := v29.trans (by norm_num)
    have v10' : R.val (10.0 : α) = 10 := v10.trans (by norm_num)
    obtain ⟨x, hx⟩ : ∃ x, x = R.val a := ⟨_, rfl⟩
    have na : NR R a x 1.9e5 0 0 := by rw [hx]; exact NR.self ha.fin hva
    have hfa := ha.fin
    rw [← hx] at h hva
    have b1 : |29 - x| ≤ 2e5 := by rw [abs_le] at hva ⊢; constructor <;> norm_num at * <;> linarith [hva.1, hva.2]
    obtain ⟨f1, w1⟩ := R.sub (29.0 : α) a f29 hfa (by rw [v29', ← hx]; exact le_roundBig (b1.trans (by norm_num)))
    rw [v29', ← hx] at w1
    have n1 : NR R (29.0 - a) (29 - x) 2e5 1e-15 1e-100 := NR.of_rnd f1 w1 (r := 0) (t := 0) (by simp) b1 (by norm_num) (by norm_num) (by norm_num) (by norm_num) (by norm_num)
    have n2 := na.mul n1 (Z := 4e10) (r' := 2.1e-15) (t' := 1e-94) (by norm_num) (by norm_num) (by norm_num) (by norm_num) (by norm_num) (by norm_num) (by norm_num) (by norm_num)
    have n10 : NR R (10.0 : α) 10 10 0 0 := NR.of_eq f10 v10' (by norm_num)
    have n3 := n10.mul na (Z := 1.9e6) (r' := 1e-15) (t' := 1e-100) (by norm_num) (by norm_num) (by norm_num) (by norm_num) (by norm_num) (by norm_num) (by norm_num) (by norm_num)
    have hp : 0 < 29 - 10 * x := by linarith
    have b4 : |29 - 10 * x| ≤ 2e6 := by rw [abs_le] at hva ⊢; constructor <;> norm_num at * <;> linarith [hva.1, hva.2]
    have e4 : |29 - R.val (10.0 * a) - (29 - 10 * x)| ≤ 1e-15 * |29 - 10 * x| + 1e-100 := by
      rw [show 29 - R.val (10.0 * a) - (29 - 10 * x) = -(R.val (10.0 * a) - 10 * x) by ring, abs_neg, abs_of_pos hp]
      refine n3.err.trans ?_
      rw [abs_of_neg (by linarith)]
      have : (1e-15 : ℝ) * -(10 * x) ≤ 1e-15 * (29 - 10 * x) := mul_le_mul_of_nonneg_left (by linarith) (by norm_num)
      linarith
    obtain ⟨f4, w4⟩ := R.sub (29.0 : α) (10.0 * a) f29 n3.fin (by
      rw [v29']
      apply le_roundBig
      have h1 := abs_sub_abs_le_abs_sub (29 - R.val (10.0 * a)) (29 - 10 * x)
      norm_num at *
      linarith)
    rw [v29'] at w4
    have n4 : NR R (29.0 - 10.0 * a) (29 - 10 * x) 2e6 2.1e-15 3e-100 := NR.of_rnd f4 w4 e4 b4 (by norm_num) (by norm_num) (by norm_num) (by norm_num) (by norm_num)
    obtain ⟨n5, hd⟩ := n2.div n4 (m := 29) (w := 2.2e-15) (Z := 1.4e9) (r' := 5.5e-15) (t' := 1e-94) (by norm_num) (by linarith) (by norm_num) (by norm_num) (by norm_num) (by norm_num) (by norm_num) (by norm_num) (by norm_num) (by norm_num) (by norm_num) (by norm_num)
    rw [pyDiv_round n4.fin hd.ne']
    refine ⟨_, rfl, n5.fin, ?_⟩
    have es : x * (29 - x) / (29 - 10 * x) = softR x := by unfold softR; rw [if_pos h]
    rw [es] at n5
    have hs0 : |softR x| ≤ 1.9e5 := by
      have h1 := softR_lip x 0
      have h2 : softR 0 = 0 := by unfold softR; simp
      rw [h2, sub_zero, sub_zero] at h1
      exact h1.trans hva
    have n6 := (n5.tight hs0).toNB (g := 1.1e-9) (by norm_num) (by norm_num)
    rw [← hx] at hlip
    have h1 := abs_sub_le (R.val (a * (29.0 - a) / (29.0 - 10.0 * a))) (softR x) (softR A)
    have h2 := n6.err
    have h3 := ha.err
    rw [← hx] at h3
    linarith
  · rw [if_neg h]
    rw [R.lt _ _ ha.fin f0, v0] at h
    have es : softR (R.val a) = R.val a := by unfold softR; rw [if_neg h]
    refine ⟨_, rfl, ha.fin, ?_⟩
    rw [es] at hlip
    refine hlip.trans (ha.err.trans ?_)
    norm_num

/-- `(yr, sgc)` in rounding arithmetic, for each number of deviates. -/
theorem yrSgc_round (hv : VarSized R zd v) (kdv : ℤ) {zt zl s w : α} {S W : ℝ} (hs : NR R s S 1500 2.2e-15 1e-99)
    (hw : NP R w W 3e7 1.42e-14 4e-93)
    (ht : R.fin zt) (ht' : |R.val zt| ≤ 10) (hl : R.fin zl) (hl' : |R.val zl| ≤ 10) :
    ∃ y g, yrSgc kdv v s zt zl w = .ok (y, g) ∧
      NB R y (if kdv = 0 then 0 else if kdv = 1 then S * R.val zt else
        if kdv = 2 then √(S ^ 2 + R.val v.sgl ^ 2) * R.val zt else S * R.val zt + R.val v.sgl * R.val zl) 1.62e4 2e-10 ∧
      NR R g (if kdv = 0 then √(S ^ 2 + R.val v.sgl ^ 2 + W) else if kdv = 1 then √(R.val v.sgl ^ 2 + W) else √W) 5800 1.64e-14 1e-45 := by
  have nzt := NR.self ht ht'
  have nzl := NR.self hl hl'
  have nsl := NR.self hv.fsgl hv.sgl
  have s2 := NP.sq hs (Z := 2250000) (r' := 5.5e-15) (t' := 1e-95) (by norm_num) (by norm_num) (by norm_num) (by norm_num) (by norm_num) (by norm_num) (by norm_num)
  have l2 := NP.sq nsl (Z := 10000) (r' := 1.1e-15) (t' := 2e-100) (by norm_num) (by norm_num) (by norm_num) (by norm_num) (by norm_num) (by norm_num) (by norm_num)
  have sl := s2.add l2 (Z := 2260000) (r' := 6.6e-15) (t' := 2e-95) (by norm_num) (by norm_num) (by norm_num) (by norm_num) (by norm_num) (by norm_num) (by norm_num) (by norm_num)
  have T := hs.mul nzt (Z := 15000) (r' := 3.3e-15) (t' := 1e-97) (by norm_num) (by norm_num) (by norm_num) (by norm_num) (by norm_num) (by norm_num) (by norm_num) (by norm_num)
  have L := nsl.mul nzl (Z := 1000) (r' := 1.1e-15) (t' := 2e-100) (by norm_num) (by norm_num) (by norm_num) (by norm_num) (by norm_num) (by norm_num) (by norm_num) (by norm_num)
  have T' := T.toNB (g := 6e-11) (by norm_num) (by norm_num)
  have L' := L.toNB (g := 2e-12) (by norm_num) (by norm_num)
  unfold yrSgc
  by_cases h0 : kdv = 0
  · simp only [if_pos h0]
    have t1 := (sl.mono (r' := 1.42e-14) (t' := 4e-93) (by norm_num) (by norm_num)).add hw (Z := 3.3e7) (r' := 1.53e-14) (t' := 9e-93) (by norm_num) (by norm_num) (by norm_num) (by norm_num) (by norm_num) (by norm_num) (by norm_num) (by norm_num)
    obtain ⟨e, t2⟩ := t1.sqrt (w := 1e-46) (Z := 5800) (r' := 1.64e-14) (t' := 1e-45) (by norm_num) (by norm_num) (by norm_num) (by norm_num) (by norm_num) (by norm_num) (by norm_num) (by norm_num)
    rw [e, ok_bind, pure_ok]
    obtain ⟨f0, v0⟩ := fin_zero R
    exact ⟨_, _, rfl, ⟨(Near.of_eq f0 v0).mono (by norm_num), by norm_num⟩, t2⟩
  · simp only [if_neg h0]
    by_cases h1 : kdv = 1
    · simp only [if_pos h1]
      have t1 := (l2.mono (r' := 1.42e-14) (t' := 4e-93) (by norm_num) (by norm_num)).add hw (Z := 3.3e7) (r' := 1.53e-14) (t' := 9e-93) (by norm_num) (by norm_num) (by norm_num) (by norm_num) (by norm_num) (by norm_num) (by norm_num) (by norm_num)
      obtain ⟨e, t2⟩ := t1.sqrt (w := 1e-46) (Z := 5800) (r' := 1.64e-14) (t' := 1e-45) (by norm_num) (by norm_num) (by norm_num) (by norm_num) (by norm_num) (by norm_num) (by norm_num) (by norm_num)
      rw [e, ok_bind, pure_ok]
      exact ⟨_, _, rfl, (T'.tight (T'.bound.trans (by norm_num))).mono (by norm_num), t2⟩
    · simp only [if_neg h1]
      obtain ⟨e, t2⟩ := hw.sqrt (w := 1e-46) (Z := 5800) (r' := 1.64e-14) (t' := 1e-45) (by norm_num) (by norm_num) (by norm_num) (by norm_num) (by norm_num) (by norm_num) (by norm_num) (by norm_num)
      by_cases h2 : kdv = 2
      · simp only [if_pos h2]
        obtain ⟨e', t3⟩ := sl.sqrt (w := 5e-48) (Z := 1510) (r' := 7.7e-15) (t' := 1e-47) (by norm_num) (by norm_num) (by norm_num) (by norm_num) (by norm_num) (by norm_num) (by norm_num) (by norm_num)
        have t4 := (t3.mul nzt (Z := 15100) (r' := 8.8e-15) (t' := 1e-45) (by norm_num) (by norm_num) (by norm_num) (by norm_num) (by norm_num) (by norm_num) (by norm_num) (by norm_num)).toNB (g := 2e-10) (by norm_num) (by norm_num)
        rw [e', ok_bind, e, ok_bind, pure_ok]
        exact ⟨_, _, rfl, t4.tight (t4.bound.trans (by norm_num)), t2⟩
      · simp only [if_neg h2]
        rw [e, ok_bind, pure_ok]
        have t5 := T'.add L' (Z := 16000) (g := 2e-10) (by norm_num) (by norm_num) (by norm_num)
        exact ⟨_, _, rfl, t5.tight (t5.bound.trans (by norm_num)), t2⟩

/-- The whole quantile in rounding arithmetic. -/
theorem avarQuantile_round (hv : VarSized R zd v) (kdv : ℤ) {ar zt zl zc : α} (ha : R.fin ar) (ha' : |R.val ar| ≤ 1e5)
    (ht : R.fin zt) (ht' : |R.val zt| ≤ 10) (hl : R.fin zl) (hl' : |R.val zl| ≤ 10) (hc : R.fin zc) (hc' : |R.val zc| ≤ 10) :
    ∃ a, avarQuantile kdv zd v ar zt zl zc = .ok a ∧
      Near R a (softR (R.val ar - R.val v.vmd - devR kdv (R.val zd) (valC R v) (R.val zt) (R.val zl) (R.val zc))) 4e-9 ∧ |R.val a| ≤ 1.8e5 := by
  have key : ∀ (k : ℤ) (yt yl : α) (D : ℝ), R.fin yt → |R.val yt| ≤ 10 → R.fin yl → |R.val yl| ≤ 10 →
      (let S := sgtR (R.val zd) (valC R v) (R.val yt)
       let W := vsR (valC R v) (S * R.val yt) ((valC R v).sgl * R.val yl) (R.val zc)
       D = (if k = 0 then 0 else if k = 1 then S * R.val yt else
        if k = 2 then √(S ^ 2 + R.val v.sgl ^ 2) * R.val yt else S * R.val yt + R.val v.sgl * R.val yl) +
        (if k = 0 then √(S ^ 2 + R.val v.sgl ^ 2 + W) else if k = 1 then √(R.val v.sgl ^ 2 + W) else √W) * R.val zc) →
      ∃ a, (do
        let sgt ← sgtOf zd v yt
        let vs ← vsOf v sgt yt yl zc
        let (yr, sgc) ← yrSgc k v sgt yt yl vs
        soften (ar - v.vmd - yr - sgc * zc) : Py α) = .ok a ∧ Near R a (softR (R.val ar - R.val v.vmd - D)) 4e-9 ∧ |R.val a| ≤ 1.8e5 := by
    intro k yt yl D h1 h1' h2 h2' hD
    dsimp only at hD
    obtain ⟨s, es, ns⟩ := sgtOf_round hv h1
    obtain ⟨w, ew, nw⟩ := vsOf_round hv ns h1 h1' h2 h2' hc hc'
    obtain ⟨y, g, eg, ny, ng⟩ := yrSgc_round hv k ns nw h1 h1' h2 h2'
    rw [es, ok_bind, ew, ok_bind, eg, ok_bind]
    dsimp only
    have b := (ng.mul (NR.self hc hc') (Z := 58000) (r' := 1.75e-14) (t' := 2e-44) (by norm_num) (by norm_num) (by norm_num) (by norm_num) (by norm_num) (by norm_num) (by norm_num) (by norm_num)).toNB (g := 1.02e-9) (by norm_num) (by norm_num)
    have a0 := (NB.self ha ha').sub (NB.self hv.fvmd hv.vmd) (Z := 1.01e5) (g := 1.02e-10) (by norm_num) (by norm_num) (by norm_num)
    have a1 := a0.sub ny (Z := 1.172e5) (g := 4.3e-10) (by norm_num) (by norm_num) (by norm_num)
    have a2 := a1.sub b (Z := 1.752e5) (g := 1.7e-9) (by norm_num) (by norm_num) (by norm_num)
    obtain ⟨r, er, nr⟩ := soften_round a2.toNear (a2.bound.trans (by norm_num)) (by norm_num)
    refine ⟨r, er, ?_, ?_⟩
    · rw [hD, ← sub_sub]
      exact nr.mono (by norm_num)
    · have e0 : ∀ x, |softR x| ≤ |x| := by
        intro x
        have h0 := softR_lip x 0
        have e0 : softR 0 = 0 := by unfold softR; simp
        rwa [e0, sub_zero, sub_zero] at h0
      have h3 := nr.abs_val
      have h4 := (e0 _).trans a2.bound
      norm_num at h3 h4 ⊢
      linarith
  unfold avarQuantile avarDeviates devR
  by_cases h0 : kdv = 0
  · simp only [if_pos h0]
    rw [h0]
    refine key 0 zc zc _ hc hc' hc hc' ?_
    simp only [if_true, tdev]
    change _ * √(_ ^ 2 + R.val v.sgl ^ 2 + _) = _
    ring
  · simp only [if_neg h0]
    by_cases h1 : kdv = 1
    · simp only [if_pos h1]
      rw [h1]
      refine key 1 zt zc _ ht ht' hc hc' ?_
      simp only [if_true, if_neg one_ne_zero, tdev]
      change _ + _ * √(R.val v.sgl ^ 2 + _) = _
      ring
    · simp only [if_neg h1]
      by_cases h2 : kdv = 2
      · simp only [if_pos h2]
        rw [h2]
        refine key 2 zt zt _ ht ht' ht ht' ?_
        simp only [if_true, show ¬ (2 : ℤ) = 0 by decide, show ¬ (2 : ℤ) = 1 by decide, if_false, tdev]
        change _ * √(_ ^ 2 + R.val v.sgl ^ 2) + _ = _
        ring
      · simp only [if_neg h2]
        refine key kdv zt zl _ ht ht' hl hl' ?_
        simp only [if_neg h0, if_neg h1, if_neg h2, tdev]
        change _ + R.val v.sgl * _ + _ = _
        ring

end Itm

import Verif.Props.C83
import Verif.Lemmas.FitStable

/-! `zlsq1` in rounding arithmetic. -/

namespace Itm
open Itm.Spec Itm.Props Finset
variable {α : Type} [PyNum α]

/-- Halves of integers are values. -/
theorem half_exact (R : Rounding α) {x : ℝ} {i : ℤ} (h : x = i / 2) (hi : |x| ≤ 1e6) : R.rnd x = x := by
  have hi' : |i| ≤ 2 ^ 53 := by
    rw [h, abs_div, abs_of_pos (by norm_num : (0 : ℝ) < 2), div_le_iff₀ (by norm_num)] at hi
    have : |(i : ℝ)| ≤ ((2 ^ 53 : ℤ) : ℝ) := by push_cast; norm_num at *; linarith
    exact_mod_cast this
  have := R.exact i (-1) hi' (by norm_num) (by norm_num)
  rw [h]
  convert this using 2 <;> rw [zpow_neg_one, div_eq_mul_inv]

theorem add_half (R : Rounding α) {a b : α} {i : ℤ} (ha : R.fin a) (hb : R.fin b) (h : R.val a + R.val b = i / 2) (hi : |R.val a + R.val b| ≤ 1e6) :
    R.fin (a + b) ∧ R.val (a + b) = R.val a + R.val b := by
  obtain ⟨f, v⟩ := R.add a b ha hb (le_roundBig (hi.trans (by norm_num)))
  exact ⟨f, by rw [v, half_exact R h hi]⟩

theorem sub_half (R : Rounding α) {a b : α} {i : ℤ} (ha : R.fin a) (hb : R.fin b) (h : R.val a - R.val b = i / 2) (hi : |R.val a - R.val b| ≤ 1e6) :
    R.fin (a - b) ∧ R.val (a - b) = R.val a - R.val b := by
  obtain ⟨f, v⟩ := R.sub a b ha hb (le_roundBig (hi.trans (by norm_num)))
  exact ⟨f, by rw [v, half_exact R h hi]⟩

theorem val_nat (R : Rounding α) (n : ℕ) (h : n ≤ 2 ^ 53) : R.fin (PyNum.ofInt (n : ℤ) : α) ∧ R.val (PyNum.ofInt (n : ℤ) : α) = n := by
  have := val_int R (n : ℤ) (by rw [Nat.abs_cast]; exact_mod_cast h)
  exact ⟨this.1, by rw [this.2]; push_cast; rfl⟩

theorem trap_abs {f : ℕ → ℝ} {a m : ℕ} {Z : ℝ} (h : ∀ j, a ≤ j → j ≤ a + m → |f j| ≤ Z) : |trap f a m| ≤ m * Z := by
  unfold trap
  refine (abs_sum_le_sum_abs _ _).trans ((sum_le_card_nsmul _ _ Z fun i hi => ?_).trans (by rw [card_range, nsmul_eq_mul]))
  have := mem_range.1 hi
  have h1 := h (a + i) (by omega) (by omega)
  have h2 := h (a + i + 1) (by omega) (by omega)
  rw [abs_div, abs_of_pos (by norm_num : (0 : ℝ) < 2), div_le_iff₀ (by norm_num)]
  linarith [abs_add_le (f (a + i)) (f (a + i + 1))]

/-- The sums of `zlsqLoop`. -/
theorem zlsqLoop_round (R : Rounding α) {p : Pfl α} {Z W Ma Mb da db : ℝ} (hz : ∀ a ∈ p.z, R.fin a ∧ |R.val a| ≤ Z) (hZ : 0 ≤ Z) (hW : W ≤ 1e5)
    (hMa : Ma ≤ 1e50) (hMb : Mb ≤ 1e50) (hZb : Z ≤ 1e10) (hda0 : 0 ≤ da) (hdb0 : 0 ≤ db) (hda : 1e-15 * Ma + 1e-100 ≤ da) (hdb : 1e-15 * (Z * W) + 1e-15 * Mb + 2e-100 ≤ db) :
    ∀ (k : ℕ) {a : ℕ} {x A B : α} {X vA vB e f : ℝ} {i : ℤ}, a + k < p.z.length → R.fin x → R.val x = X → X = i / 2 → -W ≤ X → X + k ≤ W →
      Near R A vA e → Near R B vB f → |vA| + k * Z + e + k * da ≤ Ma → |vB| + k * (Z * W) + f + k * db ≤ Mb →
      ∃ A' B', zlsqLoop p k a x A B = .ok (A', B') ∧ Near R A' (vA + ∑ j ∈ range k, (valPfl R p).h (a + j + 1)) (e + k * da) ∧
        Near R B' (vB + ∑ j ∈ range k, (valPfl R p).h (a + j + 1) * (X + j + 1)) (f + k * db) := by
  intro k
  induction k with
  | zero =>
    intro a x A B X vA vB e f i _ _ _ _ _ _ hA hB _ _
    refine ⟨A, B, rfl, ?_, ?_⟩
    · simpa using hA
    · simpa using hB
  | succ k ih =>
    intro a x A B X vA vB e f i hl hx hX hi h1 h2 hA hB bA bB
    push_cast at h2 bA bB
    have hk : (0 : ℝ) ≤ k := Nat.cast_nonneg k
    have he := hA.nonneg
    have hf := hB.nonneg
    have hW0 : 0 ≤ W := by linarith
    have hZW : 0 ≤ Z * W := mul_nonneg hZ hW0
    have hkZ : 0 ≤ (k : ℝ) * Z := by positivity
    have hkda : 0 ≤ (k : ℝ) * da := by positivity
    have hkdb : 0 ≤ (k : ℝ) * db := by positivity
    have hkZW : 0 ≤ (k : ℝ) * (Z * W) := by positivity
    obtain ⟨zf, zb⟩ := hz p.z[a + 1] (List.getElem_mem _)
    have hh : (valPfl R p).h (a + 1) = R.val p.z[a + 1] := valPfl_h R (by omega)
    rw [← hh] at zb
    have nz : Near R p.z[a + 1] ((valPfl R p).h (a + 1)) 0 := Near.of_eq zf hh.symm
    have one := Near.lit_int R (m := 10) (s := true) (k := 1) 1 (by norm_num) (by norm_num)
    have one' : R.val (1.0 : α) = 1 := one.2.trans (by norm_num)
    have hX1 : |X + 1| ≤ W := abs_le.2 ⟨by linarith, by linarith⟩
    obtain ⟨fx, vx⟩ := add_half R (i := i + 2) hx one.1 (by rw [hX, one', hi]; push_cast; ring) (by rw [hX, one']; norm_num at *; linarith)
    rw [hX, one'] at vx
    have nx : Near R (x + 1.0) (X + 1) 0 := Near.of_eq fx vx
    have nA : Near R (A + p.z[a + 1]) (vA + (valPfl R p).h (a + 1)) (e + da) :=
      hA.add nz (M := Ma) (by linarith [abs_add_le vA ((valPfl R p).h (a + 1))]) (hMa.trans (by norm_num)) (by linarith)
    have hprod : |(valPfl R p).h (a + 1) * (X + 1)| ≤ Z * W := by
      rw [abs_mul]; exact mul_le_mul zb hX1 (abs_nonneg _) hZ
    have nP : Near R (p.z[a + 1] * (x + 1.0)) ((valPfl R p).h (a + 1) * (X + 1)) (1e-15 * (Z * W) + 1e-100) :=
      nz.mul nx zb hX1 (M := Z * W) (by simp) (by
        have : Z * W ≤ 1e10 * 1e5 := mul_le_mul hZb hW hW0 (by norm_num)
        refine this.trans (by norm_num)) (by simp)
    have nB : Near R (B + p.z[a + 1] * (x + 1.0)) (vB + (valPfl R p).h (a + 1) * (X + 1)) (f + db) :=
      hB.add nP (M := Mb) (by
        have := abs_add_le vB ((valPfl R p).h (a + 1) * (X + 1))
        have : 1e-15 * (Z * W) + 1e-100 ≤ db := by
          have : 0 ≤ Mb := by linarith [abs_nonneg vB]
          norm_num at *; linarith
        linarith) (hMb.trans (by norm_num)) (by norm_num at *; linarith)
    obtain ⟨A', B', e', nA', nB'⟩ := ih (a := a + 1) (X := X + 1) (i := i + 2) (by omega) fx vx (by rw [hi]; push_cast; ring) (by linarith)
      (by linarith) nA nB (by linarith [abs_add_le vA ((valPfl R p).h (a + 1))])
      (by linarith [abs_add_le vB ((valPfl R p).h (a + 1) * (X + 1))])
    refine ⟨A', B', ?_, ?_, ?_⟩
    · unfold zlsqLoop
      dsimp only
      rw [show ((a : ℤ) + 1 + 2) = ((a + 1 : ℕ) : ℤ) + 2 by push_cast; ring, pfl_get (by omega), ok_bind, ok_bind,
        show ((a : ℤ) + 1) = ((a + 1 : ℕ) : ℤ) by push_cast; ring]
      exact e'
    · have eS : vA + ∑ j ∈ range (k + 1), (valPfl R p).h (a + j + 1) =
          vA + (valPfl R p).h (a + 1) + ∑ j ∈ range k, (valPfl R p).h (a + 1 + j + 1) := by
        have s1 : ∑ j ∈ range k, (valPfl R p).h (a + (j + 1) + 1) = ∑ j ∈ range k, (valPfl R p).h (a + 1 + j + 1) :=
          sum_congr rfl fun j _ => by congr 1; omega
        rw [sum_range_succ', s1, add_zero]
        ring
      rw [eS]
      exact nA'.mono (by push_cast; linarith)
    · have eS : vB + ∑ j ∈ range (k + 1), (valPfl R p).h (a + j + 1) * (X + j + 1) =
          vB + (valPfl R p).h (a + 1) * (X + 1) + ∑ j ∈ range k, (valPfl R p).h (a + 1 + j + 1) * (X + 1 + j + 1) := by
        have s1 : ∑ j ∈ range k, (valPfl R p).h (a + (j + 1) + 1) * (X + ((j + 1 : ℕ) : ℝ) + 1) =
            ∑ j ∈ range k, (valPfl R p).h (a + 1 + j + 1) * (X + 1 + j + 1) :=
          sum_congr rfl fun j _ => by rw [show a + (j + 1) + 1 = a + 1 + j + 1 by omega]; push_cast; ring
        rw [sum_range_succ', s1, add_zero]
        push_cast; ring
      rw [eS]
      exact nB'.mono (by push_cast; linarith)

set_option maxHeartbeats 2000000 in
/-- The fitted line over the samples `a … a + k + 1`. -/
theorem zlsqFit_round (R : Rounding α) {p : Pfl α} {Z : ℝ} {n a k : ℕ} (hz : ∀ a ∈ p.z, R.fin a ∧ |R.val a| ≤ Z) (hZ : 1 ≤ Z) (hZb : Z ≤ 1e6)
    (hnp : p.np = n) (hn : n ≤ 1000) (hk : a + (k + 1) ≤ n) (hl : n < p.z.length) :
    ∃ z0 zn, zlsqFit p a (a + (k + 1) : ℕ) = .ok (z0, zn) ∧ Near R z0 (fitAt (valPfl R p).h a (k + 1) 0) (6e-14 * (n * Z)) ∧
      Near R zn (fitAt (valPfl R p).h a (k + 1) n) (6e-14 * (n * Z)) := by
  obtain ⟨m, hm⟩ : ∃ m : ℝ, m = ((k + 1 : ℕ) : ℝ) := ⟨_, rfl⟩
  have hm1 : 1 ≤ m := by rw [hm]; push_cast; linarith [(Nat.cast_nonneg k : (0 : ℝ) ≤ k)]
  have hmk : m = k + 1 := by rw [hm]; push_cast; ring
  have hk0 : (0 : ℝ) ≤ k := Nat.cast_nonneg k
  have hmn : (a : ℝ) + m ≤ n := by rw [hm]; exact_mod_cast hk
  have hnR : (n : ℝ) ≤ 1000 := by exact_mod_cast hn
  have ha0 : (0 : ℝ) ≤ a := Nat.cast_nonneg a
  obtain ⟨za, hza⟩ : ∃ za, za = p.z[a] := ⟨_, rfl⟩
  obtain ⟨zb, hzb⟩ : ∃ zb, zb = p.z[a + (k + 1)] := ⟨_, rfl⟩
  obtain ⟨fa, ba⟩ := hz za (by rw [hza]; exact List.getElem_mem _)
  obtain ⟨fb, bb⟩ := hz zb (by rw [hzb]; exact List.getElem_mem _)
  have va : (valPfl R p).h a = R.val za := by rw [hza]; exact valPfl_h R (by omega)
  have vb : (valPfl R p).h (a + (k + 1)) = R.val zb := by rw [hzb]; exact valPfl_h R (by omega)
  -- products of sizes
  obtain ⟨U, hU⟩ : ∃ U, U = m * Z := ⟨_, rfl⟩
  obtain ⟨U2, hU2⟩ : ∃ U2, U2 = m * U := ⟨_, rfl⟩
  obtain ⟨U3, hU3⟩ : ∃ U3, U3 = m * U2 := ⟨_, rfl⟩
  obtain ⟨N, hN⟩ : ∃ N, N = (n : ℝ) * Z := ⟨_, rfl⟩
  have z0 : 0 ≤ Z := by linarith
  have u1 : Z ≤ U := by rw [hU]; exact le_mul_of_one_le_left z0 hm1
  have u2 : U ≤ U2 := by rw [hU2]; exact le_mul_of_one_le_left (by linarith) hm1
  have u3 : U2 ≤ U3 := by rw [hU3]; exact le_mul_of_one_le_left (by linarith) hm1
  have uN : U ≤ N := by rw [hU, hN]; exact mul_le_mul_of_nonneg_right (by linarith) z0
  have uNb : N ≤ 1e9 := by rw [hN]; exact (mul_le_mul hnR hZb z0 (by norm_num)).trans (by norm_num)
  have ub : U3 ≤ 1e15 := by
    have m3 : m ≤ 1000 := by linarith
    have : U ≤ 1e9 := by linarith
    have h2 : U2 ≤ 1000 * 1e9 := by rw [hU2]; exact mul_le_mul m3 this (by linarith) (by norm_num)
    rw [hU3]
    exact (mul_le_mul m3 h2 (by linarith) (by norm_num)).trans (by norm_num)
  -- the offset of the first sample from the middle
  have five := Near.lit_exact R (m := 5) (s := true) (k := 1) 1 (-1) (by norm_num) (by norm_num) (by norm_num) (by norm_num)
  have five' : R.val (0.5 : α) = 1 / 2 := five.2.trans (by norm_num)
  have nfive : Near R (0.5 : α) (1 / 2) 0 := Near.of_eq five.1 five'
  obtain ⟨fneg, vneg⟩ := R.neg _ five.1
  rw [five'] at vneg
  have im := val_nat R (k + 1) (by omega)
  have im' : R.val (PyNum.ofInt ((k + 1 : ℕ) : ℤ) : α) = m := by rw [im.2, hm]
  obtain ⟨fx, vx⟩ := R.mul _ _ fneg im.1 (by rw [vneg, im']; apply le_roundBig; rw [abs_le]; constructor <;> norm_num <;> linarith)
  have ex : -(1 / 2) * m = ((-((k + 1 : ℕ) : ℤ) : ℤ) : ℝ) / 2 := by rw [hm]; push_cast; ring
  rw [vneg, im', half_exact R ex (by rw [abs_le]; constructor <;> norm_num <;> linarith)] at vx
  obtain ⟨x, hx⟩ : ∃ x : α, x = -0.5 * PyNum.ofInt ((k + 1 : ℕ) : ℤ) := ⟨_, rfl⟩
  rw [← hx] at fx vx
  have nx : Near R x (-(1 / 2) * m) 0 := Near.of_eq fx vx
  have ijb := val_nat R (a + (k + 1)) (by omega)
  have ijb' : R.val (PyNum.ofInt ((a + (k + 1) : ℕ) : ℤ) : α) = a + m := by rw [ijb.2, hm]; push_cast; ring
  have emid : (a : ℝ) + m + -(1 / 2) * m = mid a (k + 1) := by unfold mid; rw [hm]; ring
  obtain ⟨fxb, vxb⟩ := add_half R (i := 2 * ((a + (k + 1) : ℕ) : ℤ) - ((k + 1 : ℕ) : ℤ)) ijb.1 fx
    (by rw [ijb', vx, hm]; push_cast; ring) (by rw [ijb', vx, abs_le]; constructor <;> norm_num <;> linarith)
  rw [ijb', vx, emid] at vxb
  have hmid0 : 0 ≤ mid a (k + 1) := by rw [← emid]; linarith
  have hmidn : mid a (k + 1) ≤ n := by rw [← emid]; linarith
  have inp := val_nat R n (by omega)
  have inp' : R.val (PyNum.ofInt (n : ℤ) : α) = n := inp.2
  obtain ⟨fxr, vxr⟩ := sub_half R (i := 2 * (n : ℤ) - (2 * ((a + (k + 1) : ℕ) : ℤ) - ((k + 1 : ℕ) : ℤ))) inp.1 fxb
    (by rw [inp', vxb, ← emid, hm]; push_cast; ring) (by rw [inp', vxb, abs_le]; constructor <;> norm_num <;> linarith)
  rw [inp', vxb] at vxr
  -- the starting values
  have nza : Near R za (R.val za) 0 := Near.self fa
  have nzb : Near R zb (R.val zb) 0 := Near.self fb
  have nsum : Near R (za + zb) (R.val za + R.val zb) (2.1e-15 * Z) :=
    nza.add nzb (M := 2 * Z) (by linarith [abs_add_le (R.val za) (R.val zb)]) (by clear * - hZ hZb u1 u2 u3 uN uNb ub; norm_num at hZb uNb ub ⊢; linarith) (by clear * - hZ hZb u1 u2 u3 uN uNb ub; norm_num at hZb uNb ub ⊢; linarith)
  have nA0 : Near R (0.5 * (za + zb)) (1 / 2 * (R.val za + R.val zb)) (4e-15 * Z) :=
    nfive.mul nsum (X := 1 / 2) (Y := 2 * Z) (by norm_num) (by linarith [abs_add_le (R.val za) (R.val zb)]) (M := 2 * Z)
      (by clear * - hZ hZb u1 u2 u3 uN uNb ub; norm_num at hZb uNb ub ⊢; linarith) (by clear * - hZ hZb u1 u2 u3 uN uNb ub; norm_num at hZb uNb ub ⊢; linarith) (by clear * - hZ hZb u1 u2 u3 uN uNb ub; norm_num at hZb uNb ub ⊢; linarith)
  have ndif : Near R (za - zb) (R.val za - R.val zb) (2.1e-15 * Z) :=
    nza.sub nzb (M := 2 * Z) (by linarith [abs_sub (R.val za) (R.val zb)]) (by clear * - hZ hZb u1 u2 u3 uN uNb ub; norm_num at hZb uNb ub ⊢; linarith) (by clear * - hZ hZb u1 u2 u3 uN uNb ub; norm_num at hZb uNb ub ⊢; linarith)
  have nB1 : Near R (0.5 * (za - zb)) (1 / 2 * (R.val za - R.val zb)) (2.2e-15 * Z) :=
    nfive.mul ndif (X := 1 / 2) (Y := 2 * Z) (by norm_num) (by linarith [abs_sub (R.val za) (R.val zb)]) (M := 1.1 * Z)
      (by clear * - hZ hZb u1 u2 u3 uN uNb ub; norm_num at hZb uNb ub ⊢; linarith) (by clear * - hZ hZb u1 u2 u3 uN uNb ub; norm_num at hZb uNb ub ⊢; linarith) (by clear * - hZ hZb u1 u2 u3 uN uNb ub; norm_num at hZb uNb ub ⊢; linarith)
  have hmm : |-(1 / 2) * m| ≤ m / 2 := by rw [abs_le]; constructor <;> linarith
  have hhd : |1 / 2 * (R.val za - R.val zb)| ≤ Z := by
    rw [abs_mul, abs_of_pos (by norm_num : (0 : ℝ) < 1 / 2)]; linarith [abs_sub (R.val za) (R.val zb)]
  have hUm : Z * (m / 2) = U / 2 := by rw [hU]; ring
  have nB0 : Near R (0.5 * (za - zb) * x) (1 / 2 * (R.val za - R.val zb) * (-(1 / 2) * m)) (2e-15 * U) :=
    nB1.mul nx hhd hmm (M := 0.51 * U)
      (by
        have : (Z + 2.2e-15 * Z) * (m / 2 + 0) = U / 2 + 2.2e-15 * (U / 2) := by rw [← hUm]; ring
        rw [this]; clear * - hZ hZb u1 u2 u3 uN uNb ub; norm_num at hZb uNb ub ⊢; linarith) (by clear * - hZ hZb u1 u2 u3 uN uNb ub; norm_num at hZb uNb ub ⊢; linarith)
      (by
        have : m / 2 * (2.2e-15 * Z) = 2.2e-15 * (U / 2) := by rw [← hUm]; ring
        rw [this]; clear * - hZ hZb u1 u2 u3 uN uNb ub; norm_num at hZb uNb ub ⊢; linarith)
  have vA0 : |1 / 2 * (R.val za + R.val zb)| ≤ Z := by
    rw [abs_mul, abs_of_pos (by norm_num : (0 : ℝ) < 1 / 2)]; linarith [abs_add_le (R.val za) (R.val zb)]
  have vB0 : |1 / 2 * (R.val za - R.val zb) * (-(1 / 2) * m)| ≤ U / 2 := by
    rw [abs_mul, ← hUm]; exact mul_le_mul hhd hmm (abs_nonneg _) z0
  have m3 : m ≤ 1000 := by linarith
  have U2b : U2 ≤ 1000 * U := by rw [hU2]; exact mul_le_mul_of_nonneg_right m3 (by linarith)
  have U3b : U3 ≤ 1000 * U2 := by rw [hU3]; exact mul_le_mul_of_nonneg_right m3 (by linarith)
  have kU : (k : ℝ) * U = U2 - U := by rw [hU2, hmk]; ring
  have kZ : (k : ℝ) * Z = U - Z := by rw [hU, hmk]; ring
  have kU2 : (k : ℝ) * U2 = U3 - U2 := by rw [hU3, hmk]; ring
  obtain ⟨A', B', el, nA', nB'⟩ := zlsqLoop_round R (p := p) (Z := Z) (W := m / 2) (Ma := 1.1 * U) (Mb := 0.6 * U2) (da := 1.2e-15 * U)
    (db := 1.2e-15 * U2) hz z0 (by clear * - m3; norm_num; linarith) (by clear * - hZ hZb u1 u2 u3 uN uNb ub U2b U3b vA0 vB0; norm_num at hZb uNb ub ⊢; linarith) (by clear * - hZ hZb u1 u2 u3 uN uNb ub U2b U3b vA0 vB0; norm_num at hZb uNb ub ⊢; linarith) (by clear * - hZ hZb u1 u2 u3 uN uNb ub U2b U3b vA0 vB0; norm_num at hZb uNb ub ⊢; linarith)
    (by linarith) (by linarith) (by clear * - hZ hZb u1 u2 u3 uN uNb ub U2b U3b vA0 vB0; norm_num at hZb uNb ub ⊢; linarith) (by rw [hUm]; clear * - hZ hZb u1 u2 u3 uN uNb ub U2b U3b vA0 vB0; norm_num at hZb uNb ub ⊢; linarith) k (a := a) (i := -((k + 1 : ℕ) : ℤ))
    (by omega) fx vx ex (by linarith) (by rw [hmk]; linarith) nA0 nB0
    (by
      have : (k : ℝ) * (1.2e-15 * U) = 1.2e-15 * (U2 - U) := by rw [← kU]; ring
      rw [kZ, this]; generalize |1 / 2 * (R.val za + R.val zb)| = q at vA0 ⊢; clear * - hZ hZb u1 u2 u3 uN uNb ub U2b U3b vA0 vB0; norm_num at hZb uNb ub ⊢; linarith)
    (by
      have t1 : (k : ℝ) * (1.2e-15 * U2) = 1.2e-15 * (U3 - U2) := by rw [← kU2]; ring
      have t2 : (k : ℝ) * (Z * (m / 2)) = (U2 - U) / 2 := by rw [hUm, ← kU]; ring
      rw [t1, t2]; generalize |1 / 2 * (R.val za - R.val zb) * (-(1 / 2) * m)| = q at vB0 ⊢; clear * - hZ hZb u1 u2 u3 uN uNb ub U2b U3b vA0 vB0; norm_num at hZb uNb ub ⊢; linarith)
  have hA : 1 / 2 * (R.val za + R.val zb) + ∑ j ∈ range k, (valPfl R p).h (a + j + 1) = trap (valPfl R p).h a (k + 1) := by
    rw [trap_eq, va, vb]; ring
  have hB : 1 / 2 * (R.val za - R.val zb) * (-(1 / 2) * m) + ∑ j ∈ range k, (valPfl R p).h (a + j + 1) * (-(1 / 2) * m + j + 1) =
      trap (fun j => (valPfl R p).h j * (j - mid a (k + 1))) a (k + 1) := by
    rw [trap_eq]
    unfold mid
    rw [va, vb, hmk]
    congr 1
    · push_cast; ring
    · refine sum_congr rfl fun i _ => ?_
      push_cast; ring
  rw [hA] at nA'
  rw [hB] at nB'
  have hbz : ∀ j, a ≤ j → j ≤ a + (k + 1) → |(valPfl R p).h j| ≤ Z := by
    intro j _ j2
    rw [valPfl_h R (by omega)]
    exact (hz _ (List.getElem_mem _)).2
  have bA : |trap (valPfl R p).h a (k + 1)| ≤ U := by rw [hU, hm]; exact trap_abs hbz
  have bB : |trap (fun j => (valPfl R p).h j * (j - mid a (k + 1))) a (k + 1)| ≤ U2 / 2 := by
    have := trap_abs (f := fun j => (valPfl R p).h j * (j - mid a (k + 1))) (a := a) (m := k + 1) (Z := U / 2) (fun j j1 j2 => by
      have c1 : (a : ℝ) ≤ j := by exact_mod_cast j1
      have c2 : (j : ℝ) ≤ a + m := by rw [hm]; exact_mod_cast j2
      rw [abs_mul, ← hUm]
      refine mul_le_mul (hbz j j1 j2) ?_ (abs_nonneg _) z0
      rw [← emid, abs_le]; constructor <;> linarith)
    refine this.trans (le_of_eq ?_)
    rw [← hm, hU2]; ring
  obtain ⟨TA, hTA⟩ : ∃ T, T = trap (valPfl R p).h a (k + 1) := ⟨_, rfl⟩
  obtain ⟨TB, hTB⟩ : ∃ T, T = trap (fun j => (valPfl R p).h j * (j - mid a (k + 1))) a (k + 1) := ⟨_, rfl⟩
  rw [← hTA] at nA' bA
  rw [← hTB] at nB' bB
  have nA'' : Near R A' TA (4.1e-15 * U2) := nA'.mono (by
    have : (k : ℝ) * (1.2e-15 * U) = 1.2e-15 * (U2 - U) := by rw [← kU]; ring
    rw [this]; clear * - u1 u2 u3 hZ; norm_num at *; linarith)
  have nB'' : Near R B' TB (2e-15 * U3) := nB'.mono (by
    have : (k : ℝ) * (1.2e-15 * U2) = 1.2e-15 * (U3 - U2) := by rw [← kU2]; ring
    rw [this]; clear * - u1 u2 u3 hZ; norm_num at *; linarith)
  have nm : Near R (PyNum.ofInt ((k + 1 : ℕ) : ℤ) : α) m 0 := Near.of_eq im.1 im'
  have m0 : 0 < m := by linarith
  obtain ⟨na, -⟩ := nA''.div nm (Q := Z) (m := m) (M := 1.1 * Z) (g := 5.3e-15 * U)
    (by rw [abs_div, abs_of_pos m0, div_le_iff₀ m0, mul_comm, ← hU]; exact bA) (le_abs_self m) m0
    (by
      have : (4.1e-15 * U2 + Z * 0) / (m - 0) = 4.1e-15 * U := by rw [hU2, mul_zero, add_zero, sub_zero, mul_left_comm, mul_div_cancel_left₀ _ m0.ne']
      rw [this]
      have : U ≤ 1000 * Z := by rw [hU]; exact mul_le_mul_of_nonneg_right m3 z0
      clear * - this hZ; norm_num at *; linarith) (by clear * - hZb; norm_num at *; linarith)
    (by
      have : (4.1e-15 * U2 + Z * 0) / (m - 0) = 4.1e-15 * U := by rw [hU2, mul_zero, add_zero, sub_zero, mul_left_comm, mul_div_cancel_left₀ _ m0.ne']
      rw [this]; clear * - u1 hZ; norm_num at *; linarith)
  have ntw := Near.lit_int R (m := 120) (s := true) (k := 1) 12 (by norm_num) (by norm_num)
  have ntw' : Near R (12.0 : α) 12 0 := Near.of_eq ntw.1 (ntw.2.trans (by norm_num))
  have n12 : Near R (B' * 12.0) (TB * 12) (30.2e-15 * U3) :=
    nB''.mul ntw' bB (Y := 12) (by norm_num) (M := 6.1 * U2) (by clear * - u1 u2 u3 hZ U3b; norm_num at *; linarith)
      (by clear * - u3 ub; norm_num at *; linarith) (by clear * - u1 u2 u3 hZ; norm_num at *; linarith)
  have iD := val_int R ((((k + 1 : ℕ) : ℤ) * ((k + 1 : ℕ) : ℤ) + 2) * ((k + 1 : ℕ) : ℤ)) (by
    have h1 : ((k + 1 : ℕ) : ℤ) ≤ 1000 := by omega
    have h0 : (0 : ℤ) ≤ ((k + 1 : ℕ) : ℤ) := by omega
    generalize ((k + 1 : ℕ) : ℤ) = i at h0 h1
    clear * - h0 h1
    have h2 := mul_le_mul h1 h1 h0 (by norm_num : (0:ℤ) ≤ 1000)
    have h3 := mul_le_mul (add_le_add_left h2 2) h1 h0 (by norm_num)
    rw [abs_of_nonneg (by positivity)]
    exact h3.trans (by norm_num))
  obtain ⟨D, hD⟩ : ∃ D : ℝ, D = (m * m + 2) * m := ⟨_, rfl⟩
  have iD' : R.val (PyNum.ofInt ((((k + 1 : ℕ) : ℤ) * ((k + 1 : ℕ) : ℤ) + 2) * ((k + 1 : ℕ) : ℤ)) : α) = D := by
    rw [iD.2, hD, hm]; push_cast; ring
  have D0 : 0 < D := by rw [hD]; positivity
  have DZ : U3 ≤ D * Z := by
    have : D * Z = m * (m * (m * Z)) + 2 * (m * Z) := by rw [hD]; ring
    rw [hU3, hU2, hU, this]; linarith [mul_nonneg m0.le z0]
  have D1 : 1 ≤ D := by rw [hD]; exact one_le_mul_of_one_le_of_one_le (by linarith [one_le_mul_of_one_le_of_one_le hm1 hm1]) hm1
  have DU : U2 ≤ D * Z := by linarith
  have nD : Near R (PyNum.ofInt ((((k + 1 : ℕ) : ℤ) * ((k + 1 : ℕ) : ℤ) + 2) * ((k + 1 : ℕ) : ℤ)) : α) D 0 := Near.of_eq iD.1 iD'
  have hQ : |TB * 12 / D| ≤ 6 * Z := by
    rw [abs_div, abs_of_pos D0, div_le_iff₀ D0, abs_mul, abs_of_pos (by norm_num : (0:ℝ) < 12)]
    linarith
  have hq1 : (30.2e-15 * U3 + 6 * Z * 0) / (D - 0) ≤ 30.2e-15 * Z := by
    rw [mul_zero, add_zero, sub_zero, div_le_iff₀ D0]
    clear * - DZ; norm_num; linarith
  obtain ⟨nb, hD0⟩ := n12.div nD (Q := 6 * Z) (m := D) (M := 6.1 * Z) (g := 37e-15 * Z) hQ (le_abs_self D) D0
    (by clear * - hq1 hZ; norm_num at *; linarith) (by clear * - hZb; norm_num at *; linarith) (by clear * - hq1 hZ; norm_num at *; linarith)
  have efA : TA / m = fitA (valPfl R p).h a (k + 1) := by unfold fitA; rw [hTA, hm]
  have efB : TB * 12 / D = fitB (valPfl R p).h a (k + 1) := by unfold fitB; rw [hTB, hD, hm]; ring
  have bA' : |TA / m| ≤ Z := by rw [abs_div, abs_of_pos m0, div_le_iff₀ m0, mul_comm, ← hU]; exact bA
  have ZN : Z ≤ N := by linarith
  have hmul : ∀ {y : α} {t : ℝ}, R.fin y → R.val y = t → |t| ≤ n →
      Near R (B' * 12.0 / PyNum.ofInt ((((k + 1 : ℕ) : ℤ) * ((k + 1 : ℕ) : ℤ) + 2) * ((k + 1 : ℕ) : ℤ)) * y) (TB * 12 / D * t) (43.2e-15 * N) := by
    intro y t fy vy ht
    refine nb.mul (Near.of_eq fy vy) hQ ht (M := 6.1 * N) ?_ (by clear * - uNb; norm_num at *; linarith) ?_
    · have : (6 * Z + 37e-15 * Z) * ((n : ℝ) + 0) = 6 * N + 37e-15 * N := by rw [hN]; ring
      rw [this]; clear * - ZN hZ; norm_num at *; linarith
    · have : (n : ℝ) * (37e-15 * Z) = 37e-15 * N := by rw [hN]; ring
      rw [mul_zero, mul_zero, this]; clear * - ZN hZ; norm_num at *; linarith
  have hval : ∀ {t : ℝ}, |t| ≤ n → |TB * 12 / D * t| ≤ 6 * N := by
    intro t ht
    rw [abs_mul, hN]
    have := mul_le_mul hQ ht (abs_nonneg _) (by positivity)
    linarith
  have t1 : |mid a (k + 1)| ≤ n := by rw [abs_of_nonneg hmid0]; exact hmidn
  have t2 : |(n : ℝ) - mid a (k + 1)| ≤ n := by rw [abs_of_nonneg (by linarith)]; linarith
  have r0 := na.sub (hmul fxb vxb t1) (M := 7.1 * N) (g := 6e-14 * N)
    (by have q1 := abs_sub (TA / m) (TB * 12 / D * mid a (k + 1)); have q2 := hval t1; clear * - q1 q2 bA' ZN uN hZ; norm_num at hZ; linarith)
    (by clear * - uNb; norm_num at *; linarith) (by clear * - uN ZN hZ; norm_num at *; linarith)
  have rn := na.add (hmul fxr vxr t2) (M := 7.1 * N) (g := 6e-14 * N)
    (by have q1 := abs_add_le (TA / m) (TB * 12 / D * (n - mid a (k + 1))); have q2 := hval t2; clear * - q1 q2 bA' ZN uN hZ; norm_num at hZ; linarith)
    (by clear * - uNb; norm_num at *; linarith) (by clear * - uN ZN hZ; norm_num at *; linarith)
  have e0 : fitAt (valPfl R p).h a (k + 1) 0 = TA / m - TB * 12 / D * mid a (k + 1) := by unfold fitAt; rw [efA, efB]; ring
  have en : fitAt (valPfl R p).h a (k + 1) n = TA / m + TB * 12 / D * (n - mid a (k + 1)) := by unfold fitAt; rw [efA, efB]
  rw [← e0, hN] at r0
  rw [← en, hN] at rn
  refine ⟨_, _, ?_, r0, rn⟩
  unfold zlsqFit
  have em : (((a + (k + 1) : ℕ) : ℤ) - (a : ℤ)) = ((k + 1 : ℕ) : ℤ) := by push_cast; ring
  dsimp only
  rw [em, pfl_get (by omega), ok_bind, pfl_get (by omega), ok_bind, ← hza, ← hzb, ← hx]
  rw [show (((k + 1 : ℕ) : ℤ) - 1).toNat = k by omega, el, ok_bind]
  dsimp only
  rw [if_neg (by omega), pyDiv_round iD.1 (by rw [iD']; exact D0.ne'), ok_bind, pure_ok, hnp]

/-! ### the window -/

theorem pyInt_round {R : Rounding α} {a : α} (ha : R.fin a) (h : 0 ≤ R.val a) : pyInt a = ⌊R.val a⌋ := by
  unfold pyInt
  obtain ⟨f0, v0⟩ := fin_zero R
  rw [if_neg (by rw [R.lt _ _ ha f0, v0]; exact not_lt.2 h), R.floor _ ha]

theorem pyMax_val {R : Rounding α} {a b : α} (ha : R.fin a) (hb : R.fin b) : R.fin (pyMax a b) ∧ R.val (pyMax a b) = max (R.val a) (R.val b) := by
  have h := pyMax_round (Near.self ha) (Near.self hb)
  refine ⟨h.fin, ?_⟩
  have := h.err
  rw [max_self] at this
  exact sub_eq_zero.1 (abs_nonpos_iff.1 this)

/-- A quotient of path length and spacing, at most `n` samples long. -/
theorem quot_round (R : Rounding α) {x xi : α} {n : ℕ} (hn : n ≤ 1000) (fx : R.fin x) (fi : R.fin xi) (hi : 0 < R.val xi) (h0 : 0 ≤ R.val x)
    (h1 : R.val x ≤ n * R.val xi) : x /! xi = .ok (x / xi) ∧ R.fin (x / xi) ∧ 0 ≤ R.val (x / xi) ∧ R.val (x / xi) ≤ n ∧
      |R.val (x / xi) - R.val x / R.val xi| ≤ 1.1e-12 := by
  have hnR : (n : ℝ) ≤ 1000 := by exact_mod_cast hn
  have q0 : 0 ≤ R.val x / R.val xi := div_nonneg h0 hi.le
  have q1 : R.val x / R.val xi ≤ n := (div_le_iff₀ hi).2 h1
  have qb : |R.val x / R.val xi| ≤ 1000 := by rw [abs_of_nonneg q0]; linarith
  obtain ⟨fq, vq⟩ := R.div _ _ fx fi hi.ne' (le_roundBig (qb.trans (by norm_num)))
  refine ⟨pyDiv_round fi hi.ne', fq, ?_, ?_, ?_⟩
  · rw [vq]; exact rnd_nonneg R q0
  · rw [vq]
    refine (R.mono q1).trans (le_of_eq ?_)
    have := R.exact n 0 (by rw [Nat.abs_cast]; exact_mod_cast (by omega : n ≤ 2 ^ 53)) (by norm_num) (by norm_num)
    simpa using this
  · rw [vq]
    refine (Near.rnd_err R qb (by norm_num)).trans (by norm_num)

theorem zlsqWindow_round (R : Rounding α) {p : Pfl α} {x1 x2 : α} {n : ℕ} (hnp : p.np = n) (hn : n ≤ 1000) (fi : R.fin p.xi) (hi : 0 < R.val p.xi)
    (f1 : R.fin x1) (f2 : R.fin x2) (h1 : 0 ≤ R.val x1) (h12 : R.val x1 ≤ R.val x2) (h2 : R.val x2 ≤ n * R.val p.xi) :
    ∃ u v : ℝ, 0 ≤ u ∧ v ≤ n ∧ |u - R.val x1 / R.val p.xi| ≤ 1e-11 ∧ |v - R.val x2 / R.val p.xi| ≤ 1e-11 ∧
      zlsqWindow p x1 x2 = .ok (if ⌈v⌉ ≤ ⌊u⌋ then (max (⌊u⌋ - 1) 0, n - max (n - ⌈v⌉ + 1) 0) else (⌊u⌋, ⌈v⌉)) := by
  have hnR : (n : ℝ) ≤ 1000 := by exact_mod_cast hn
  have n0 : (0 : ℝ) ≤ n := Nat.cast_nonneg n
  obtain ⟨e1, fq1, a1, b1, c1⟩ := quot_round R hn f1 fi hi h1 (h12.trans h2)
  obtain ⟨e2, fq2, a2, b2, c2⟩ := quot_round R hn f2 fi hi (h1.trans h12) h2
  obtain ⟨inp, inp'⟩ := val_nat R n (by omega) (α := α)
  obtain ⟨f0, v0⟩ := fin_zero R
  have nd := (Near.of_eq inp inp').sub (Near.self fq2) (M := 1000) (g := 1.1e-12)
    (by rw [abs_of_nonneg (by linarith)]; linarith) (by norm_num) (by norm_num)
  obtain ⟨fm, vm⟩ := pyMax_val (R := R) fq1 f0
  obtain ⟨fm2, vm2⟩ := pyMax_val (R := R) nd.fin f0
  rw [v0] at vm vm2
  rw [max_eq_left a1] at vm
  obtain ⟨w, hw⟩ : ∃ w, w = max (R.val (PyNum.ofInt (n : ℤ) - x2 / p.xi)) 0 := ⟨_, rfl⟩
  rw [← hw] at vm2
  have w0 : 0 ≤ w := by rw [hw]; exact le_max_right _ _
  have hw1 : |w - (n - R.val (x2 / p.xi))| ≤ 1.1e-12 := by
    have := nd.err
    rw [abs_le] at this ⊢
    rw [hw]
    constructor
    · linarith [le_max_left (R.val (PyNum.ofInt (n : ℤ) - x2 / p.xi)) 0, this.1]
    · have : max (R.val (PyNum.ofInt (n : ℤ) - x2 / p.xi)) 0 ≤ n - R.val (x2 / p.xi) + 1.1e-12 :=
        max_le (by linarith [this.2]) (by norm_num; linarith)
      linarith
  refine ⟨R.val (x1 / p.xi), n - w, a1, by linarith, c1.trans (by norm_num), ?_, ?_⟩
  · rw [abs_le] at hw1 c2 ⊢
    norm_num at hw1 c2 ⊢
    constructor <;> linarith [hw1.1, hw1.2, c2.1, c2.2]
  · unfold zlsqWindow
    rw [e1, ok_bind, e2, ok_bind, hnp]
    have ec : (n : ℤ) - ⌊w⌋ = ⌈(n : ℝ) - w⌉ := by
      have : (n : ℝ) - w = -w + ((n : ℤ) : ℝ) := by push_cast; ring
      rw [this, Int.ceil_add_intCast, Int.ceil_neg]; ring
    dsimp only
    rw [pyInt_round fm (by rw [vm]; exact a1), pyInt_round fm2 (by rw [vm2]; exact w0), vm, vm2, ec]
    split_ifs <;> rfl

/-- The fit over a proper window. -/
theorem zlsq1_round (R : Rounding α) {p : Pfl α} {x1 x2 : α} {n : ℕ} {Z : ℝ} (hnp : p.np = n) (hn : n ≤ 1000) (hl : n < p.z.length)
    (hz : ∀ a ∈ p.z, R.fin a ∧ |R.val a| ≤ Z) (hZ : 1 ≤ Z) (hZb : Z ≤ 1e6) (fi : R.fin p.xi) (hi : 0 < R.val p.xi)
    (f1 : R.fin x1) (f2 : R.fin x2) (h1 : 0 ≤ R.val x1) (h12 : R.val x1 / R.val p.xi + 1e-10 ≤ R.val x2 / R.val p.xi) (h2 : R.val x2 ≤ n * R.val p.xi) :
    ∃ (u v : ℝ) (z0 zn : α), 0 ≤ u ∧ v ≤ n ∧ u < v ∧ |u - R.val x1 / R.val p.xi| ≤ 1e-11 ∧ |v - R.val x2 / R.val p.xi| ≤ 1e-11 ∧
      zlsq1 p x1 x2 = .ok (z0, zn) ∧
      Near R z0 (fitAt (valPfl R p).h ⌊u⌋₊ (⌈v⌉₊ - ⌊u⌋₊) 0) (6e-14 * (n * Z)) ∧
      Near R zn (fitAt (valPfl R p).h ⌊u⌋₊ (⌈v⌉₊ - ⌊u⌋₊) n) (6e-14 * (n * Z)) := by
  have h12' : R.val x1 ≤ R.val x2 := by
    have : R.val x1 / R.val p.xi ≤ R.val x2 / R.val p.xi := by norm_num at h12; linarith
    exact (div_le_div_iff_of_pos_right hi).1 this
  obtain ⟨u, v, u0, vn, hu, hv, ew⟩ := zlsqWindow_round R hnp hn fi hi f1 f2 h1 h12' h2
  have huv : u < v := by
    rw [abs_le] at hu hv
    norm_num at hu hv h12
    linarith [hu.2, hv.1]
  have v0 : 0 < v := by linarith
  have lt : ⌊u⌋₊ < ⌈v⌉₊ := Nat.floor_lt_ceil_of_lt_of_pos huv v0
  have le : ⌈v⌉₊ ≤ n := Nat.ceil_le.2 vn
  obtain ⟨k, hk⟩ : ∃ k, ⌈v⌉₊ = ⌊u⌋₊ + (k + 1) := ⟨⌈v⌉₊ - ⌊u⌋₊ - 1, by omega⟩
  obtain ⟨z0, zn, e, m0, mn⟩ := zlsqFit_round R (p := p) (a := ⌊u⌋₊) (k := k) hz hZ hZb hnp hn (by omega) hl
  rw [show k + 1 = ⌈v⌉₊ - ⌊u⌋₊ by omega] at m0 mn
  refine ⟨u, v, z0, zn, u0, vn, huv, hu, hv, ?_, m0, mn⟩
  have eu : ⌊u⌋ = ((⌊u⌋₊ : ℕ) : ℤ) := (Int.natCast_floor_eq_floor u0).symm
  have ev : ⌈v⌉ = ((⌈v⌉₊ : ℕ) : ℤ) := (Int.natCast_ceil_eq_ceil v0.le).symm
  unfold zlsq1
  rw [ew, eu, ev, if_neg (by push_cast; omega), ok_bind]
  dsimp only
  rw [hk]
  exact e

end Itm

import Verif.Lemmas.RelRound
import Verif.Props.C29

/-! Complex numbers in rounding arithmetic. -/

namespace Itm
open Spec
variable {α : Type} [PyNum α] {R : Rounding α}

/-- The complex number meant. -/
def cval (R : Rounding α) (z : Cx α) : ℂ := ⟨R.val z.re, R.val z.im⟩

/-- A complex number with an error of at most `e`. -/
structure NC (R : Rounding α) (z : Cx α) (w : ℂ) (e : ℝ) : Prop where
  re : R.fin z.re
  im : R.fin z.im
  err : ‖cval R z - w‖ ≤ e

theorem NC.mono {z : Cx α} {w : ℂ} {e g : ℝ} (h : NC R z w e) (hg : e ≤ g) : NC R z w g := ⟨h.re, h.im, h.err.trans hg⟩

theorem NC.of_near {z : Cx α} {w : ℂ} {e f g : ℝ} (h : Near R z.re w.re e) (k : Near R z.im w.im f) (hg : e + f ≤ g) : NC R z w g := by
  refine ⟨h.fin, k.fin, (Complex.norm_le_abs_re_add_abs_im _).trans ((add_le_add ?_ ?_).trans hg)⟩
  · exact h.err
  · exact k.err

/-- The quotients of Smith's algorithm: `D` is the larger part of the divisor. -/
theorem smith_parts {D o A B : α} {m : ℝ} (hD : R.fin D) (ho : R.fin o) (hA : R.fin A) (hB : R.fin B) (em : |R.val D| = m) (m1 : 1e-6 ≤ m) (m2 : m ≤ 1e6)
    (o1 : |R.val o| ≤ m) (A1 : |R.val A| ≤ m) (B1 : |R.val B| ≤ m) :
    o /! D = .ok (o / D) ∧
    ∀ d, (d = D + o * (o / D) ∨ d = o * (o / D) + D) → (∀ x, x /! d = .ok (x / d)) ∧
      ∀ n n', (n = A + B * (o / D) ∨ n = B * (o / D) + A) ∧ n' = R.val A + R.val B * (R.val o / R.val D) ∨
          n = A - B * (o / D) ∧ n' = R.val A - R.val B * (R.val o / R.val D) ∨ n = B * (o / D) - A ∧ n' = R.val B * (R.val o / R.val D) - R.val A →
        Near R (n / d) (n' / (R.val D + R.val o * (R.val o / R.val D))) 1.6e-14 := by
  have mp : 0 < m := lt_of_lt_of_le (by norm_num) m1
  have D0 : R.val D ≠ 0 := fun h => by rw [h, abs_zero] at em; linarith
  have tiny : (1e-100 : ℝ) ≤ 1e-90 * m := by clear * - m1; norm_num at *; linarith
  have t1 : |R.val o / R.val D| ≤ 1 := by rw [abs_div, em]; exact (div_le_one mp).2 o1
  obtain ⟨nt, -⟩ := Near.div (Near.self ho) (Near.self hD) t1 em.ge mp (M := 1) (g := 1.1e-15) (by norm_num) (by norm_num) (by norm_num)
  have nm : ∀ {x : α}, R.fin x → |R.val x| ≤ m → Near R (x * (o / D)) (R.val x * (R.val o / R.val D)) (2.3e-15 * m) := fun hx h =>
    (Near.self hx).mul nt h t1 (M := 1.1 * m) (by clear * - mp; norm_num at *; linarith) (by clear * - m2; norm_num at *; linarith)
      (by clear * - tiny mp; norm_num at *; linarith)
  have bm : ∀ {x : α}, |R.val x| ≤ m → |R.val x * (R.val o / R.val D)| ≤ m := fun h => by
    rw [abs_mul]; exact (mul_le_mul h t1 (abs_nonneg _) mp.le).trans (by rw [mul_one])
  have no := nm ho o1
  have nB := nm hB B1
  have bo := bm o1
  have bB := bm B1
  have vlo : m ≤ |R.val D + R.val o * (R.val o / R.val D)| := by
    rw [show R.val D + R.val o * (R.val o / R.val D) = R.val D * (1 + (R.val o / R.val D) ^ 2) by field_simp, abs_mul, em]
    have : (1 : ℝ) ≤ |1 + (R.val o / R.val D) ^ 2| := by rw [abs_of_pos (by positivity)]; nlinarith [sq_nonneg (R.val o / R.val D)]
    nlinarith
  generalize R.val o / R.val D = t at *
  refine ⟨pyDiv_round hD D0, fun d hd => ?_⟩
  have nd : Near R d (R.val D + R.val o * t) (4.5e-15 * m) := by
    have hs : |R.val D + R.val o * t| ≤ 2 * m := (abs_add_le _ _).trans (by rw [em]; linarith)
    rcases hd with rfl | rfl
    · exact (Near.self hD).add no (M := 2.1 * m) (by clear * - hs mp; norm_num at *; linarith) (by clear * - m2; norm_num at *; linarith)
        (by clear * - tiny mp; norm_num at *; linarith)
    · rw [add_comm (R.val D)] at hs ⊢
      exact no.add (Near.self hD) (M := 2.1 * m) (by clear * - hs mp; norm_num at *; linarith) (by clear * - m2; norm_num at *; linarith)
        (by clear * - tiny mp; norm_num at *; linarith)
  have key : ∀ {n : α} {n' : ℝ}, Near R n n' (4.5e-15 * m) → |n'| ≤ 2 * m → Near R (n / d) (n' / (R.val D + R.val o * t)) 1.6e-14 ∧ R.val d ≠ 0 := by
    intro n n' hn hb
    have hq : (4.5e-15 * m + 2 * (4.5e-15 * m)) / (m - 4.5e-15 * m) ≤ 1.36e-14 := by
      rw [div_le_iff₀ (by clear * - mp; norm_num at *; linarith)]
      clear * - mp; norm_num at *; linarith
    refine Near.div hn nd (Q := 2) (m := m) (M := 2.1) ?_ vlo (by clear * - mp; norm_num at *; linarith) ?_ (by norm_num) ?_
    · rw [abs_div, div_le_iff₀ (by linarith)]; linarith
    · clear * - hq; norm_num at *; linarith
    · clear * - hq; norm_num at *; linarith
  refine ⟨fun x => pyDiv_round nd.fin (key (n := D) (n' := R.val D) ?_ ?_).2, fun n n' hn => (key ?_ ?_).1⟩
  · exact ⟨hD, by rw [sub_self, abs_zero]; positivity⟩
  · rw [em]; linarith
  · have a1 : |R.val A + R.val B * t| ≤ 2 * m := (abs_add_le _ _).trans (by linarith)
    have a2 : |R.val A - R.val B * t| ≤ 2 * m := (abs_sub _ _).trans (by linarith)
    have c1 : (0:ℝ) + 2.3e-15 * m + 1e-15 * (2.1 * m) + 1e-100 ≤ 4.5e-15 * m := by clear * - tiny mp; norm_num at *; linarith
    have c2 : 2.3e-15 * m + 0 + 1e-15 * (2.1 * m) + 1e-100 ≤ 4.5e-15 * m := by clear * - tiny mp; norm_num at *; linarith
    have c3 : 2.1 * m ≤ (1e100 : ℝ) := by clear * - m2; norm_num at *; linarith
    rcases hn with ⟨rfl | rfl, rfl⟩ | ⟨rfl, rfl⟩ | ⟨rfl, rfl⟩
    · exact (Near.self hA).add nB (M := 2.1 * m) (by clear * - a1 mp; norm_num at *; linarith) c3 c1
    · rw [add_comm (R.val A)] at a1 ⊢
      exact nB.add (Near.self hA) (M := 2.1 * m) (by clear * - a1 mp; norm_num at *; linarith) c3 c2
    · exact (Near.self hA).sub nB (M := 2.1 * m) (by clear * - a2 mp; norm_num at *; linarith) c3 c1
    · rw [abs_sub_comm] at a2
      exact nB.sub (Near.self hA) (M := 2.1 * m) (by clear * - a2 mp; norm_num at *; linarith) c3 c2
  · rcases hn with ⟨-, rfl⟩ | ⟨-, rfl⟩ | ⟨-, rfl⟩
    · exact (abs_add_le _ _).trans (by linarith)
    · exact (abs_sub _ _).trans (by linarith)
    · exact (abs_sub _ _).trans (by linarith)

theorem cval_div_re (z w : Cx α) (h : R.val w.re ≠ 0) :
    cval R z / cval R w = ⟨(R.val z.re + R.val z.im * (R.val w.im / R.val w.re)) / (R.val w.re + R.val w.im * (R.val w.im / R.val w.re)),
      (R.val z.im - R.val z.re * (R.val w.im / R.val w.re)) / (R.val w.re + R.val w.im * (R.val w.im / R.val w.re))⟩ := by
  have h2 : R.val w.re * R.val w.re + R.val w.im * R.val w.im ≠ 0 := by nlinarith [mul_self_pos.2 h, mul_self_nonneg (R.val w.im)]
  have h3 : R.val w.re + R.val w.im * (R.val w.im / R.val w.re) = (R.val w.re * R.val w.re + R.val w.im * R.val w.im) / R.val w.re := by field_simp
  rw [h3]
  apply Complex.ext
  · rw [Complex.div_re]; simp only [cval, Complex.normSq_apply]; field_simp
  · rw [Complex.div_im]; simp only [cval, Complex.normSq_apply]; field_simp

theorem cval_div_im (z w : Cx α) (h : R.val w.im ≠ 0) :
    cval R z / cval R w = ⟨(R.val z.im + R.val z.re * (R.val w.re / R.val w.im)) / (R.val w.im + R.val w.re * (R.val w.re / R.val w.im)),
      (R.val z.im * (R.val w.re / R.val w.im) - R.val z.re) / (R.val w.im + R.val w.re * (R.val w.re / R.val w.im))⟩ := by
  have h2 : R.val w.re * R.val w.re + R.val w.im * R.val w.im ≠ 0 := by nlinarith [mul_self_pos.2 h, mul_self_nonneg (R.val w.re)]
  have h3 : R.val w.im + R.val w.re * (R.val w.re / R.val w.im) = (R.val w.re * R.val w.re + R.val w.im * R.val w.im) / R.val w.im := by
    field_simp; ring
  rw [h3]
  apply Complex.ext
  · rw [Complex.div_re]; simp only [cval, Complex.normSq_apply]; field_simp; ring
  · rw [Complex.div_im]; simp only [cval, Complex.normSq_apply]; field_simp

/-- Division of complex numbers, the dividend not much larger than the divisor. -/
theorem cxdiv_round {z w : Cx α} {m : ℝ} (zr : R.fin z.re) (zi : R.fin z.im) (wr : R.fin w.re) (wi : R.fin w.im) (em : max |R.val w.re| |R.val w.im| = m)
    (m1 : 1e-6 ≤ m) (m2 : m ≤ 1e6) (z1 : |R.val z.re| ≤ m) (z2 : |R.val z.im| ≤ m) :
    ∃ q, Cx.div z w = .ok q ∧ NC R q (cval R z / cval R w) 3.2e-14 := by
  obtain ⟨fr, vr⟩ := R.abs _ wr
  obtain ⟨fi, vi⟩ := R.abs _ wi
  have mp : 0 < m := lt_of_lt_of_le (by norm_num) m1
  unfold Cx.div
  split_ifs with h
  · rw [R.le _ _ fi fr, vr, vi] at h
    have e : |R.val w.re| = m := by rw [← em, max_eq_left h]
    have h0 : R.val w.re ≠ 0 := fun k => by rw [k, abs_zero] at e; linarith
    obtain ⟨p1, p2⟩ := smith_parts wr wi zr zi e m1 m2 (e ▸ h) z1 z2
    obtain ⟨q1, q2⟩ := p2 _ (.inl rfl)
    obtain ⟨-, p3⟩ := smith_parts wr wi zi zr e m1 m2 (e ▸ h) z2 z1
    obtain ⟨-, q3⟩ := p3 _ (.inl rfl)
    refine ⟨_, by rw [p1, ok_bind]; dsimp only; rw [q1, ok_bind, q1, ok_bind], ?_⟩
    rw [cval_div_re z w h0]
    exact NC.of_near (q2 _ _ (.inl ⟨.inl rfl, rfl⟩)) (q3 _ _ (.inr (.inl ⟨rfl, rfl⟩))) (by norm_num)
  · rw [R.le _ _ fi fr, vr, vi, not_le] at h
    have e : |R.val w.im| = m := by rw [← em, max_eq_right h.le]
    have h0 : R.val w.im ≠ 0 := fun k => by rw [k, abs_zero] at e; linarith
    obtain ⟨p1, p2⟩ := smith_parts wi wr zi zr e m1 m2 (e ▸ h.le) z2 z1
    obtain ⟨q1, q2⟩ := p2 _ (.inr rfl)
    obtain ⟨-, p3⟩ := smith_parts wi wr zr zi e m1 m2 (e ▸ h.le) z1 z2
    obtain ⟨-, q3⟩ := p3 _ (.inr rfl)
    refine ⟨_, by rw [p1, ok_bind]; dsimp only; rw [q1, ok_bind, q1, ok_bind], ?_⟩
    rw [cval_div_im z w h0]
    exact NC.of_near (q2 _ _ (.inl ⟨.inr rfl, rfl⟩)) (q3 _ _ (.inr (.inr ⟨rfl, rfl⟩))) (by norm_num)

/-- The smooth-ground reflection coefficient. -/
theorem reflect_round {s : α} {S : ℝ} {z : Cx α} (hs : RL R s S 1e-14) (S2 : S ≤ 1) (zr : R.fin z.re) (zi : R.fin z.im) (r1 : 1e-3 ≤ R.val z.re) (r2 : R.val z.re ≤ 1e3)
    (i2 : |R.val z.im| ≤ 1e3) :
    ∃ q, Cx.div (Cx.sub ⟨s, 0.0⟩ z) (Cx.add ⟨s, 0.0⟩ z) = .ok q ∧ NC R q ((S - cval R z) / (S + cval R z)) 6e-14 := by
  obtain ⟨f0, v0⟩ := fin_zero R
  have Sp := hs.pos
  have sp := hs.val_pos (by norm_num)
  have e1 := abs_le.1 hs.err
  have s2 : R.val s ≤ 1.1 := by clear * - e1 S2; norm_num at *; linarith
  obtain ⟨a1, a2⟩ := R.add s z.re hs.fin zr (le_roundBig (by rw [abs_of_pos (by linarith)]; clear * - s2 r2; norm_num at *; linarith))
  obtain ⟨b1, b2⟩ := R.sub s z.re hs.fin zr (le_roundBig (by rw [abs_le]; clear * - s2 r2 sp r1; constructor <;> norm_num at * <;> linarith))
  obtain ⟨c1, c2⟩ := R.add 0.0 z.im f0 zi (le_roundBig (by rw [v0, zero_add]; exact i2.trans (by norm_num)))
  obtain ⟨d1, d2⟩ := R.sub 0.0 z.im f0 zi (le_roundBig (by rw [v0, zero_sub, abs_neg]; exact i2.trans (by norm_num)))
  rw [v0, zero_add, R.val_rnd _ zi] at c2
  rw [v0, zero_sub, R.odd, R.val_rnd _ zi] at d2
  have zp : 0 < R.val z.re := lt_of_lt_of_le (by norm_num) r1
  have ra := Near.rnd_err R (x := R.val s + R.val z.re) (M := R.val s + R.val z.re) (by rw [abs_of_pos (by linarith)]) (by clear * - s2 r2; norm_num at *; linarith)
  have rb := Near.rnd_err R (x := R.val s - R.val z.re) (M := R.val s + R.val z.re) (by rw [abs_le]; constructor <;> linarith) (by clear * - s2 r2; norm_num at *; linarith)
  have hle : |R.rnd (R.val s - R.val z.re)| ≤ R.rnd (R.val s + R.val z.re) := by
    rw [abs_le, ← R.odd]
    exact ⟨R.mono (by linarith), R.mono (by linarith)⟩
  rw [← a2] at ra hle
  rw [← b2] at rb hle
  have wpos : 1e-3 / 2 ≤ R.val (s + z.re) := by
    have := (abs_le.1 ra).1
    clear * - this sp r1 s2 r2; norm_num at *; linarith
  have wle : R.val (s + z.re) ≤ 1e4 := by
    have := (abs_le.1 ra).2
    clear * - this sp r1 s2 r2; norm_num at *; linarith
  have wabs : |R.val (s + z.re)| = R.val (s + z.re) := abs_of_pos (lt_of_lt_of_le (by norm_num) wpos)
  obtain ⟨q, q1, q2⟩ := cxdiv_round (R := R) (z := Cx.sub ⟨s, 0.0⟩ z) (w := Cx.add ⟨s, 0.0⟩ z) b1 d1 a1 c1 rfl
    (le_trans (by rw [show (Cx.add ⟨s, 0.0⟩ z).re = s + z.re from rfl, wabs]; exact le_trans (by norm_num) wpos) (le_max_left _ _))
    (max_le (by rw [show (Cx.add ⟨s, 0.0⟩ z).re = s + z.re from rfl, wabs]; exact wle.trans (by norm_num))
      (by rw [show (Cx.add ⟨s, 0.0⟩ z).im = 0.0 + z.im from rfl, c2]; exact i2.trans (by norm_num)))
    (by
      refine le_trans ?_ (le_max_left _ _)
      rw [show (Cx.add ⟨s, 0.0⟩ z).re = s + z.re from rfl, wabs]; exact hle)
    (by
      refine le_trans (le_of_eq ?_) (le_max_right _ _)
      rw [show (Cx.add ⟨s, 0.0⟩ z).im = 0.0 + z.im from rfl, show (Cx.sub ⟨s, 0.0⟩ z).im = 0.0 - z.im from rfl, c2, d2, abs_neg])
  refine ⟨q, q1, q2.re, q2.im, ?_⟩
  have tri := norm_sub_le_norm_sub_add_norm_sub (cval R q) (cval R (Cx.sub ⟨s, 0.0⟩ z) / cval R (Cx.add ⟨s, 0.0⟩ z)) ((S - cval R z) / (S + cval R z))
  refine tri.trans ((add_le_add q2.err ?_).trans (by norm_num : (3.2e-14 : ℝ) + 2.7e-14 ≤ 6e-14))
  -- perturbation of the quotient
  have hz : cval R z = ⟨R.val z.re, R.val z.im⟩ := rfl
  have hn : cval R (Cx.sub ⟨s, 0.0⟩ z) = (S - cval R z) + ((R.val (s - z.re) - (S - R.val z.re) : ℝ) : ℂ) := by
    apply Complex.ext
    · simp [cval, Cx.sub]
    · simp only [cval, Cx.sub, d2]; simp
  have hd : cval R (Cx.add ⟨s, 0.0⟩ z) = (S + cval R z) + ((R.val (s + z.re) - (S + R.val z.re) : ℝ) : ℂ) := by
    apply Complex.ext
    · simp [cval, Cx.add]
    · simp only [cval, Cx.add, c2]; simp
  have k1 : |R.val (s - z.re) - (S - R.val z.re)| ≤ 1.2e-14 * (S + R.val z.re) := by
    have t1 := abs_sub_le (R.val (s - z.re)) (R.val s - R.val z.re) (S - R.val z.re)
    rw [show R.val s - R.val z.re - (S - R.val z.re) = R.val s - S by ring] at t1
    have := hs.err
    clear * - rb t1 this Sp zp e1 r1; norm_num at *; linarith
  have k2 : |R.val (s + z.re) - (S + R.val z.re)| ≤ 1.2e-14 * (S + R.val z.re) := by
    have t1 := abs_sub_le (R.val (s + z.re)) (R.val s + R.val z.re) (S + R.val z.re)
    rw [show R.val s + R.val z.re - (S + R.val z.re) = R.val s - S by ring] at t1
    have := hs.err
    clear * - ra t1 this Sp zp e1 r1; norm_num at *; linarith
  rw [hn, hd]
  generalize R.val (s - z.re) - (S - R.val z.re) = x at *
  generalize R.val (s + z.re) - (S + R.val z.re) = y at *
  have hDre : (S : ℝ) + R.val z.re ≤ ‖(S : ℂ) + cval R z‖ := by
    have := Complex.abs_re_le_norm ((S : ℂ) + cval R z)
    rw [Complex.add_re, Complex.ofReal_re, hz, abs_of_pos (by show 0 < S + R.val z.re; linarith)] at this
    exact this
  have hND : ‖(S : ℂ) - cval R z‖ ≤ ‖(S : ℂ) + cval R z‖ := by
    rw [← sq_le_sq₀ (norm_nonneg _) (norm_nonneg _), ← Complex.normSq_eq_norm_sq, ← Complex.normSq_eq_norm_sq, Complex.normSq_apply, Complex.normSq_apply, hz]
    simp
    nlinarith
  have hx : ‖(x : ℂ)‖ ≤ 1.2e-14 * ‖(S : ℂ) + cval R z‖ := by
    rw [Complex.norm_real, Real.norm_eq_abs]; exact k1.trans (mul_le_mul_of_nonneg_left hDre (by norm_num))
  have hy : ‖(y : ℂ)‖ ≤ 1.2e-14 * ‖(S : ℂ) + cval R z‖ := by
    rw [Complex.norm_real, Real.norm_eq_abs]; exact k2.trans (mul_le_mul_of_nonneg_left hDre (by norm_num))
  have hDp : 0 < ‖(S : ℂ) + cval R z‖ := lt_of_lt_of_le (by linarith) hDre
  generalize (S : ℂ) + cval R z = D at *
  generalize (S : ℂ) - cval R z = N at *
  have hD' : (1 - 1.2e-14) * ‖D‖ ≤ ‖D + y‖ := by
    have := norm_sub_le (D + y) (y : ℂ)
    rw [add_sub_cancel_right] at this
    linarith
  have hDy : 0 < ‖D + (y : ℂ)‖ := lt_of_lt_of_le (mul_pos (by norm_num) hDp) hD'
  have h1 : D ≠ 0 := norm_pos_iff.1 hDp
  have h2 : D + (y : ℂ) ≠ 0 := norm_pos_iff.1 hDy
  rw [show (N + (x : ℂ)) / (D + y) - N / D = ((x : ℂ) * D - N * y) / ((D + y) * D) by field_simp; ring, norm_div, div_le_iff₀ (by rw [norm_mul]; positivity), norm_mul]
  refine (norm_sub_le _ _).trans ?_
  rw [norm_mul, norm_mul]
  have m1 := mul_le_mul_of_nonneg_right hx hDp.le
  have m2 := mul_le_mul hND hy (norm_nonneg _) hDp.le
  have m3 := mul_le_mul_of_nonneg_right hD' hDp.le
  have : 0 < ‖D‖ * ‖D‖ := mul_pos hDp hDp
  clear * - m1 m2 m3 this
  generalize ‖D + (y : ℂ)‖ = B at *
  generalize ‖D‖ = A at *
  generalize ‖(x : ℂ)‖ = X at *
  generalize ‖(y : ℂ)‖ = Y at *
  norm_num at m1 m2 m3 ⊢
  nlinarith

end Itm

import Verif.Lemmas.ZlsqRound

/-! `dlthx` in a rounding arithmetic. -/

namespace Itm
open Itm.Spec Itm.Props
variable {α : Type} [PyNum α]

/-- Interpolation in a cell that holds the position up to `ε`. -/
theorem cell_near {z : ℕ → ℝ} {k n : ℕ} {x pos ε Z : ℝ} (hk : 1 ≤ k) (hkn : k ≤ n) (hz : ∀ j, j ≤ n → |z j| ≤ Z) (h0 : 0 ≤ pos) (hn : pos ≤ n)
    (hε : ε ≤ 1 / 4) (h1 : -1 - ε ≤ x) (h2 : x ≤ ε) (hp : |k + x - pos| ≤ ε) :
    |z k + (z k - z (k - 1)) * x - interp z pos| ≤ 6 * Z * ε := by
  have ε0 : 0 ≤ ε := (abs_nonneg _).trans hp
  have Z0 : 0 ≤ Z := (abs_nonneg _).trans (hz 0 (Nat.zero_le _))
  have Zε : 0 ≤ Z * ε := mul_nonneg Z0 ε0
  rw [abs_le] at hp
  have dz : ∀ i j, i ≤ n → j ≤ n → |z i - z j| ≤ 2 * Z := fun i j hi hj =>
    (abs_sub _ _).trans (by linarith [hz i hi, hz j hj])
  rcases le_or_gt pos k with hpk | hpk
  · rcases le_or_gt ((k : ℝ) - 1) pos with hpl | hpl
    · have e := interp_cell (z := z) (k := k) (x := pos - k) hk (by linarith) (by linarith)
      rw [add_sub_cancel] at e
      rw [← e]
      have : z k + (z k - z (k - 1)) * x - (z k + (z k - z (k - 1)) * (pos - k)) = (z k - z (k - 1)) * (x - (pos - k)) := by ring
      rw [this, abs_mul]
      have h3 : |x - (pos - k)| ≤ ε := by rw [abs_le]; constructor <;> linarith [hp.1, hp.2]
      have := mul_le_mul (dz k (k - 1) hkn (by omega)) h3 (abs_nonneg _) (by linarith)
      linarith
    · have hk2 : 2 ≤ k := by
        by_contra hc
        have : k = 1 := by omega
        rw [this] at hpl; norm_num at hpl; linarith
      obtain ⟨m, rfl⟩ : ∃ m, k = m + 1 := ⟨k - 1, by omega⟩
      rw [Nat.add_sub_cancel] at *
      push_cast at *
      have e := interp_cell (z := z) (k := m) (x := pos - m) (by omega) (by linarith [hp.2]) (by linarith)
      rw [add_sub_cancel] at e
      rw [← e]
      have : z (m + 1) + (z (m + 1) - z m) * x - (z m + (z m - z (m - 1)) * (pos - m)) =
          (z (m + 1) - z m) * (x + 1) - (z m - z (m - 1)) * (pos - m) := by ring
      rw [this]
      refine (abs_sub _ _).trans ?_
      rw [abs_mul, abs_mul]
      have h3 : |x + 1| ≤ ε := by rw [abs_le]; constructor <;> linarith [hp.2]
      have h4 : |pos - m| ≤ 2 * ε := by rw [abs_le]; constructor <;> linarith [hp.2]
      have a1 := mul_le_mul (dz (m + 1) m hkn (by omega)) h3 (abs_nonneg _) (by linarith)
      have a2 := mul_le_mul (dz m (m - 1) (by omega) (by omega)) h4 (abs_nonneg _) (by linarith)
      linarith
  · have hk2 : k + 1 ≤ n := by
      have : (k : ℝ) < n := by linarith
      exact_mod_cast this
    have e := interp_cell (z := z) (k := k + 1) (x := pos - (k + 1 : ℕ)) (by omega) (by push_cast; linarith) (by push_cast; linarith [hp.1])
    rw [add_sub_cancel, Nat.add_sub_cancel] at e
    rw [← e]
    push_cast
    have : z k + (z k - z (k - 1)) * x - (z (k + 1) + (z (k + 1) - z k) * (pos - (k + 1))) =
        (z k - z (k - 1)) * x - (z (k + 1) - z k) * (pos - k) := by ring
    rw [this]
    refine (abs_sub _ _).trans ?_
    rw [abs_mul, abs_mul]
    have h3 : |x| ≤ ε := by rw [abs_le]; constructor <;> linarith [hp.2]
    have h4 : |pos - k| ≤ 2 * ε := by rw [abs_le]; constructor <;> linarith [hp.1]
    have a1 := mul_le_mul (dz k (k - 1) hkn (by omega)) h3 (abs_nonneg _) (by linarith)
    have a2 := mul_le_mul (dz (k + 1) k (by omega) hkn) h4 (abs_nonneg _) (by linarith)
    linarith

theorem val_one (R : Rounding α) : R.fin (1.0 : α) ∧ R.val (1.0 : α) = 1 := by
  have := Near.lit_int R (m := 10) (s := true) (k := 1) 1 (by norm_num) (by norm_num)
  exact ⟨this.1, this.2.trans (by norm_num)⟩

/-- The step to the next cells. -/
theorem dlthxSkip_round (R : Rounding α) {n : ℕ} {pos : ℝ} (hpn : pos ≤ n) : ∀ (d : ℕ) {xa : α} {k : ℤ} {e : ℝ}, ((n : ℤ) - k).toNat = d → R.fin xa →
    -1.1 ≤ R.val xa → R.val xa ≤ 31 → k ≤ n → |k + R.val xa - pos| ≤ e →
    ∃ xa' k', dlthxSkip n xa k = (xa', k') ∧ R.fin xa' ∧ k ≤ k' ∧ k' ≤ n ∧ min (R.val xa) (-1) ≤ R.val xa' ∧ R.val xa' ≤ e + (k' - k) * 3.3e-14 ∧
      |k' + R.val xa' - pos| ≤ e + (k' - k) * 3.3e-14 := by
  obtain ⟨f0, v0⟩ := fin_zero R
  obtain ⟨f1, v1⟩ := val_one R (α := α)
  intro d
  induction d with
  | zero =>
    intro xa k e hd fx h1 h31 hk hp
    have : k = n := by omega
    subst this
    rw [dlthxSkip, if_neg (by omega)]
    refine ⟨_, _, rfl, fx, le_rfl, le_rfl, min_le_left _ _, ?_, by linarith⟩
    have := (abs_le.1 hp).2
    push_cast at this ⊢
    linarith
  | succ d ih =>
    intro xa k e hd fx h1 h31 hk hp
    have e0 : 0 ≤ e := (abs_nonneg _).trans hp
    rw [dlthxSkip]
    have hc : (0.0 < xa ∧ k < (n : ℤ)) ↔ (0 < R.val xa ∧ k < n) := by rw [R.lt _ _ f0 fx, v0]
    by_cases c : 0 < R.val xa ∧ k < n
    · rw [if_pos (hc.2 c)]
      have ns := (Near.self fx).sub (Near.of_eq f1 v1) (M := 32) (g := 3.3e-14)
        (by norm_num at h1 ⊢; rw [abs_le]; constructor <;> linarith [c.1]) (by norm_num) (by norm_num)
      have lo : -1 ≤ R.val (xa - 1.0) := by
        rw [(R.sub _ _ fx f1 (le_roundBig (by rw [v1, abs_le]; norm_num; constructor <;> linarith [c.1]))).2, v1]
        have := R.mono (show (-1 : ℝ) ≤ R.val xa - 1 by linarith [c.1])
        have ex := R.exact (-1) 0 (by norm_num) (by norm_num) (by norm_num)
        norm_num at ex
        rw [ex] at this
        exact this
      have hi := ns.le
      have hp' : |((k + 1 : ℤ) : ℝ) + R.val (xa - 1.0) - pos| ≤ e + 3.3e-14 := by
        have := ns.err
        push_cast
        rw [abs_le] at this hp ⊢
        constructor <;> linarith [this.1, this.2, hp.1, hp.2]
      obtain ⟨xa', k', e1, fx', a1, a2, a3, a4, a5⟩ := ih (xa := xa - 1.0) (k := k + 1) (e := e + 3.3e-14) (by omega) ns.fin
        (by norm_num at *; linarith) (by norm_num at *; linarith) (by omega) hp'
      push_cast at a4 a5
      refine ⟨xa', k', e1, fx', by omega, a2, ?_, by linarith, by linarith⟩
      refine le_trans ?_ a3
      rw [min_eq_right lo]
      exact min_le_right _ _
    · rw [if_neg (fun h => c (hc.1 h))]
      refine ⟨_, _, rfl, fx, le_rfl, hk, min_le_left _ _, ?_, by linarith⟩
      have : ¬ 0 < R.val xa := fun h => c ⟨h, by omega⟩
      push Not at this
      linarith

/-- One interpolated height. -/
theorem dlthxSample_round (R : Rounding α) {p : Pfl α} {n : ℕ} {xa : α} {k : ℤ} {pos : ℝ} (hl : n < p.z.length)
    (hz : ∀ a ∈ p.z, R.fin a ∧ |R.val a| ≤ 1e4) (fx : R.fin xa) (hk : 1 ≤ k) (hkn : k ≤ n) (h1 : -1 - 7e-11 ≤ R.val xa) (h2 : R.val xa ≤ 7e-11)
    (h0 : 0 ≤ pos) (hpn : pos ≤ n) (hp : |k + R.val xa - pos| ≤ 7e-11) :
    ∃ s, dlthxSample p xa k = .ok s ∧ Near R s (interp (valPfl R p).h pos) 4.3e-6 := by
  obtain ⟨j, rfl⟩ := Int.eq_ofNat_of_zero_le (show 0 ≤ k by omega)
  have hj : 1 ≤ j := by omega
  have hjn : j ≤ n := by omega
  have hb : ∀ i, i ≤ n → |(valPfl R p).h i| ≤ 1e4 := fun i hi => by
    rw [valPfl_h R (by omega)]; exact (hz _ (List.getElem_mem _)).2
  have c := cell_near (z := (valPfl R p).h) (k := j) (n := n) (x := R.val xa) (pos := pos) (ε := 7e-11) (Z := 1e4) hj hjn hb h0 hpn (by norm_num) h1 h2
    (by exact_mod_cast hp)
  rw [valPfl_h R (by omega : j < p.z.length), valPfl_h R (by omega : j - 1 < p.z.length)] at c
  unfold dlthxSample
  rw [if_pos (by unfold Pfl.len; omega), pfl_get (by omega), ok_bind]
  have e : ((j : ℤ) + 1) = ((j - 1 : ℕ) : ℤ) + 2 := by omega
  rw [e, pfl_get (by omega), ok_bind, pure_ok]
  refine ⟨_, rfl, ?_⟩
  obtain ⟨fa, ba⟩ := hz p.z[j] (List.getElem_mem _)
  obtain ⟨fb, bb⟩ := hz p.z[j - 1] (List.getElem_mem _)
  generalize p.z[j] = a at *
  generalize p.z[j - 1] = b at *
  have bd : |R.val a - R.val b| ≤ 2e4 := (abs_sub _ _).trans (by norm_num at *; linarith)
  have bx : |R.val xa| ≤ 1.1 := by rw [abs_le]; norm_num at *; constructor <;> linarith
  have nd := (Near.self fa).sub (Near.self fb) (M := 2e4) (g := 2.1e-11) (by norm_num at *; linarith) (by norm_num) (by norm_num)
  have nm := nd.mul (Near.self fx) bd bx (M := 2.3e4) (g := 4.7e-11) (by norm_num) (by norm_num) (by norm_num)
  have bm : |(R.val a - R.val b) * R.val xa| ≤ 2.2e4 := by
    rw [abs_mul]
    exact (mul_le_mul bd bx (abs_nonneg _) (by norm_num)).trans (by norm_num)
  have ns := (Near.self fa).add nm (M := 3.3e4) (g := 1e-10)
    (by have := abs_add_le (R.val a) ((R.val a - R.val b) * R.val xa); norm_num at *; linarith) (by norm_num) (by norm_num)
  refine ⟨ns.fin, ?_⟩
  have := ns.err
  have t := abs_add_le (R.val (a + (a - b) * xa) - (R.val a + (R.val a - R.val b) * R.val xa)) (R.val a + (R.val a - R.val b) * R.val xa - interp (valPfl R p).h pos)
  rw [sub_add_sub_cancel] at t
  norm_num at *
  linarith

/-- The resampled terrain. -/
theorem dlthxResample_round (R : Rounding α) {p : Pfl α} {n : ℕ} {step : α} {d σ : ℝ} (hnp : p.np = n) (hl : n < p.z.length)
    (hz : ∀ a ∈ p.z, R.fin a ∧ |R.val a| ≤ 1e4) (fs : R.fin step) (s0 : 0 ≤ R.val step) (s30 : R.val step ≤ 30) (d0 : 0 ≤ d)
    (hσ : |R.val step - d| ≤ σ) : ∀ (m : ℕ) {xa : α} {k : ℤ} {P e : ℝ}, R.fin xa → -1 - 7e-11 ≤ R.val xa → R.val xa ≤ 31 → 1 ≤ k → k ≤ n →
    |k + R.val xa - P| ≤ e → 0 ≤ P → P + ((m : ℝ) - 1) * d ≤ n → e + m * (σ + 3.3e-14) + (n - k) * 3.3e-14 ≤ 7e-11 →
    ∃ s : List α, dlthxResample p step m xa k = .ok s ∧ s.length = m ∧
      ∀ i (h : i < s.length), Near R s[i] (interp (valPfl R p).h (P + i * d)) 4.3e-6 := by
  intro m
  induction m with
  | zero => intro xa k P e _ _ _ _ _ _ _ _ _; exact ⟨[], rfl, rfl, fun i h => absurd h (by simp)⟩
  | succ m ih =>
    intro xa k P e fx h1 h31 hk hkn hp hP0 hPn hb
    have σ0 : 0 ≤ σ := (abs_nonneg _).trans hσ
    have m0 : (0 : ℝ) ≤ m := Nat.cast_nonneg m
    have e0 : 0 ≤ e := (abs_nonneg _).trans hp
    push_cast at hPn hb
    have hmd : 0 ≤ (m : ℝ) * d := mul_nonneg m0 d0
    have hPn' : P ≤ n := by linarith
    obtain ⟨xa', k', es, fx', k1, k2, lo, up, er⟩ := dlthxSkip_round R hPn' _ rfl fx (by norm_num at *; linarith) h31 hkn hp
    have c1 : (k : ℝ) ≤ k' := by exact_mod_cast k1
    have c2 : (k' : ℝ) ≤ n := by exact_mod_cast k2
    have ms0 : 0 ≤ (m : ℝ) * (σ + 3.3e-14) := mul_nonneg m0 (by norm_num; linarith)
    have eb : e + (k' - k) * 3.3e-14 ≤ 7e-11 := by norm_num at *; linarith
    have lo' : -1 - 7e-11 ≤ R.val xa' := le_trans (le_min h1 (by norm_num)) lo
    obtain ⟨v, ev, nv⟩ := dlthxSample_round R hl hz fx' (by omega) k2 lo' (up.trans eb) hP0 hPn' (er.trans eb)
    have bsum : |R.val xa' + R.val step| ≤ 31 := by rw [abs_le]; norm_num at *; constructor <;> linarith
    have na := (Near.self fx').add (Near.self fs) (M := 31) (g := 3.3e-14) (by linarith) (by norm_num) (by norm_num)
    have la : R.val xa' ≤ R.val (xa' + step) := by
      rw [(R.add _ _ fx' fs (le_roundBig (bsum.trans (by norm_num)))).2]
      have := R.mono (show R.val xa' ≤ R.val xa' + R.val step by linarith)
      rwa [R.val_rnd _ fx'] at this
    have hp' : |(k' : ℝ) + R.val (xa' + step) - (P + d)| ≤ e + (k' - k) * 3.3e-14 + σ + 3.3e-14 := by
      have := na.err
      rw [abs_le] at this er hσ ⊢
      constructor <;> linarith [this.1, this.2, er.1, er.2, hσ.1, hσ.2]
    obtain ⟨s, e2, sl, sn⟩ := ih (xa := xa' + step) (k := k') (P := P + d) na.fin (by linarith) (by have := na.le; norm_num at *; linarith) (by omega) k2 hp'
      (by linarith) (by linarith) (by norm_num at *; linarith)
    refine ⟨v :: s, ?_, by simp [sl], ?_⟩
    · unfold dlthxResample
      rw [hnp, es]
      dsimp only
      rw [ev, ok_bind, e2, ok_bind, pure_ok]
    · intro i h
      cases i with
      | zero => simpa using nv
      | succ i =>
        have := sn i (by simpa using h)
        rw [List.getElem_cons_succ]
        rwa [show P + ((i + 1 : ℕ) : ℝ) * d = P + d + i * d by push_cast; ring]

/-- The deviations from a line. -/
theorem dlthxDetrend_round (R : Rounding α) {step : α} {b σ g : ℝ} (hs : Near R step b σ) (hg : g ≤ 1) : ∀ (s : List α) {x : α} {c e : ℝ},
    (∀ a ∈ s, R.fin a ∧ |R.val a| ≤ 2e4) → Near R x c e → (∀ i : ℕ, i ≤ s.length → |c + b * i| ≤ 1e5) → e + s.length * (σ + 1.1e-10) ≤ g →
    (dlthxDetrend step s x).length = s.length ∧ ∀ i (h : i < s.length) (h' : i < (dlthxDetrend step s x).length),
      Near R (dlthxDetrend step s x)[i] (R.val s[i] - (c + b * i)) (g + 2e-10) := by
  intro s
  induction s with
  | nil => intro x c e _ _ _ _; exact ⟨rfl, fun i h => absurd h (by simp)⟩
  | cons a s ih =>
    intro x c e ha hx hc he
    have σ0 := hs.nonneg
    have e0 := hx.nonneg
    have l0 : (0 : ℝ) ≤ s.length := Nat.cast_nonneg _
    rw [List.length_cons] at he hc
    push_cast at he
    have hsl : 0 ≤ (s.length : ℝ) * (σ + 1.1e-10) := mul_nonneg l0 (by norm_num; linarith)
    have hc0 := hc 0 (by omega)
    have hc1 := hc 1 (by omega)
    simp only [Nat.cast_zero, mul_zero, add_zero] at hc0
    simp only [Nat.cast_one, mul_one] at hc1
    obtain ⟨fa, ba⟩ := ha a (by simp)
    have e1 : e ≤ 1 := by norm_num at *; linarith
    have σ1 : σ ≤ 1 := by norm_num at *; linarith
    have nx := hx.add hs (M := 1.05e5) (g := e + (σ + 1.1e-10)) (by norm_num at *; linarith) (by norm_num) (by norm_num; linarith)
    have na := (Near.self fa).sub hx (M := 1.3e5) (g := g + 2e-10) (by have := abs_sub (R.val a) c; norm_num at *; linarith) (by norm_num)
      (by norm_num at *; linarith)
    obtain ⟨h1, h2⟩ := ih (x := x + step) (c := c + b) (fun y hy => ha y (by simp [hy])) nx
      (fun i hi => by have := hc (i + 1) (by omega); push_cast at this; rwa [show c + b + b * i = c + b * (i + 1) by ring])
      (by linarith)
    refine ⟨by unfold dlthxDetrend; simp [h1], ?_⟩
    intro i h h'
    cases i with
    | zero => simpa [dlthxDetrend] using na
    | succ i =>
      have := h2 i (by simpa using h) (by rw [h1]; simpa using h)
      simp only [dlthxDetrend, List.getElem_cons_succ]
      rwa [show c + b * ((i + 1 : ℕ) : ℝ) = c + b + b * i by push_cast; ring]

/-- `qtile` compares only. -/
theorem qtile_round (R : Rounding α) {s : List α} (hs : ∀ a ∈ s, R.fin a) {k : ℕ} (hk : k < s.length) :
    ∃ v, qtile s k = .ok v ∧ R.fin v ∧ IsRank (s.map R.val) k (R.val v) := by
  have e : (s.mergeSort fun x y => decide (y ≤ x)).map R.val = (s.map R.val).mergeSort fun x y => decide (y ≤ x) :=
    List.map_mergeSort fun a ha b hb => by
      rw [decide_eq_decide]
      exact R.le _ _ (hs b hb) (hs a ha)
  have hl : k < (s.mergeSort fun x y => decide (y ≤ x)).length := by rw [List.length_mergeSort]; exact hk
  obtain ⟨w, hw, rw'⟩ := C01_qtile_rank (s.map R.val) k (by simpa using hk)
  have hw' : pyGet ((s.map R.val).mergeSort fun x y => decide (y ≤ x)) (k : ℤ) = .ok w := hw
  rw [← e, pyGet_nonneg (by omega) (by simpa using hl)] at hw'
  unfold qtile
  rw [pyGet_nonneg (by omega) (by exact_mod_cast hl)]
  refine ⟨_, rfl, hs _ ((List.mem_mergeSort).1 (List.getElem_mem _)), ?_⟩
  simp only [List.getElem_map, ok_inj] at hw'
  rw [hw']
  exact rw'

end Itm

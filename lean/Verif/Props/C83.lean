import Verif.Spec.NearHorizon
import Verif.Lemmas.Near
import Verif.Lemmas.Chop
import Verif.Props.C35
import Verif.Props.C75

/-! C83: `hzns` in rounding arithmetic. -/

namespace Itm.Props
open Itm Spec
variable {α : Type} [PyNum α]

/-- The sizes of quantities at which a horizon is looked for: distance `s` known up to `2.1e-12` of the span `S`. -/
structure LookSized (s S κ h z : ℝ) : Prop where
  s1 : 1 ≤ s
  sS : s ≤ S
  S1000 : S ≤ 1000 * s
  Sbig : S ≤ 4e6
  hκ : |κ| ≤ 2.5e-7
  hh : |h| ≤ 2e4
  hz : |z| ≤ 1e4
  slope : |z - h| ≤ s

theorem LookSized.view {s S κ h z : ℝ} (H : LookSized s S κ h z) : |elevation κ h s z| ≤ 1.5 := by
  have s0 : 0 < s := by linarith [H.s1]
  have e1 : |(z - h) / s| ≤ 1 := by rw [abs_div, abs_of_pos s0, div_le_one s0]; exact H.slope
  have e2 : |κ / 2 * s| ≤ 0.5 := by
    rw [abs_mul, abs_div, abs_of_pos s0, abs_of_pos (by norm_num : (0:ℝ) < 2)]
    have := mul_le_mul (div_le_div_of_nonneg_right H.hκ (by norm_num : (0:ℝ) ≤ 2)) (H.sS.trans H.Sbig) s0.le (by norm_num)
    refine this.trans (by norm_num)
  unfold elevation
  have := abs_sub ((z - h) / s) (κ / 2 * s)
  norm_num at *; linarith

/-- The new angle. -/
theorem look_angle (R : Rounding α) {q sh th : α} {s S v θ : ℝ} (s1 : 1 ≤ s) (sS : s ≤ S) (S1000 : S ≤ 1000 * s) (Sbig : S ≤ 4e6)
    (hview : |v| ≤ 1.5) (ht2 : |θ| ≤ 2) (hθ : R.val th = θ) (ht : R.fin th) (hs : Near R sh s (2.1e-12 * S))
    (n5 : Near R q (s * (v - θ)) (7e-12 * S + 7e-11)) (hq : 0 < R.val q) :
    q /! sh = .ok (q / sh) ∧ R.fin (th + q / sh) ∧ R.val th ≤ R.val (th + q / sh) ∧
        |R.val (th + q / sh) - v| ≤ (1.6e-11 * S + 7.5e-11) / s := by
  have s0 : 0 < s := by linarith
  have S1 : 1 ≤ S := by linarith
  have hdiff : |v - θ| ≤ 3.5 := by
    have := abs_sub v θ
    norm_num at *; linarith
  have hvθ : |s * (v - θ) / s| ≤ 3.5 := by rwa [mul_div_cancel_left₀ _ s0.ne']
  have hf : 2.1e-12 * S ≤ 2.1e-9 * s := by norm_num at *; linarith
  have hden : (1 - 2.1e-9) * s ≤ s - 2.1e-12 * S := by norm_num at *; linarith
  have hden0 : 0 < (1 - 2.1e-9) * s := mul_pos (by norm_num) s0
  have hquot : (7e-12 * S + 7e-11 + 3.5 * (2.1e-12 * S)) / (s - 2.1e-12 * S) ≤ (1.45e-11 * S + 7.1e-11) / s := by
    rw [div_le_div_iff₀ (by linarith) s0]
    refine le_trans ?_ (mul_le_mul_of_nonneg_left hden (by positivity))
    have := mul_pos s0 (by linarith : 0 < S)
    norm_num; nlinarith
  have hSs : 1 ≤ S / s := by rw [one_le_div s0]; exact sS
  have hSs' : S / s ≤ 1000 := by rw [div_le_iff₀ s0]; exact S1000
  have h1s : 1 / s ≤ 1 := by rw [div_le_one s0]; exact s1
  have h1s0 : 0 < 1 / s := by positivity
  have ex1 : (1.45e-11 * S + 7.1e-11) / s = 1.45e-11 * (S / s) + 7.1e-11 * (1 / s) := by ring
  have ex3 : (1.6e-11 * S + 7.5e-11) / s = 1.6e-11 * (S / s) + 7.5e-11 * (1 / s) := by ring
  rw [ex1] at hquot
  have hsS := abs_of_pos s0
  have hfs : 2.1e-12 * S < s := by
    have : (2.1e-9 : ℝ) * s < s := by norm_num; linarith
    linarith
  have hvb : |v| + 1e-3 ≤ 2 := by norm_num at *; linarith
  generalize hA : S / s = A at *
  generalize hB : 1 / s = B at *
  generalize hQ : (7e-12 * S + 7e-11 + 3.5 * (2.1e-12 * S)) / (s - 2.1e-12 * S) = Q at *
  have b1 : 3.5 + Q ≤ 4 := by clear * - hquot hSs' h1s; norm_num at *; linarith
  have b2 : Q + 1e-15 * 4 + 1e-100 ≤ 1.5e-11 * A + 7.2e-11 * B := by clear * - hquot hSs h1s0; norm_num at *; linarith
  have b3 : 1.5e-11 * A + 7.2e-11 * B ≤ 1e-3 := by clear * - hSs' h1s; norm_num at *; linarith
  have b4 : 0 + (1.5e-11 * A + 7.2e-11 * B) + 1e-15 * 2 + 1e-100 ≤ 1.6e-11 * A + 7.5e-11 * B := by
    clear * - hSs h1s0; norm_num at *; linarith
  obtain ⟨n6, hne⟩ := n5.div hs (Q := 3.5) (m := s) (M := 4) (g := 1.5e-11 * A + 7.2e-11 * B) hvθ hsS.ge
    hfs (by rw [hQ]; exact b1) (by norm_num) (by rw [hQ]; exact b2)
  rw [mul_div_cancel_left₀ _ s0.ne'] at n6
  have nth : Near R th θ 0 := Near.of_eq ht hθ
  have n7 : Near R (th + q / sh) (θ + (v - θ)) (1.6e-11 * A + 7.5e-11 * B) :=
    nth.add n6 (M := 2) (by rw [add_sub_cancel]; linarith) (by norm_num) b4
  rw [add_sub_cancel] at n7
  refine ⟨pyDiv_round hs.fin hne, n7.fin, ?_, by rw [ex3]; exact n7.err⟩
  have hsh1 : 1 / 2 ≤ R.val sh := by
    have := hs.ge
    have : (2.1e-9 : ℝ) * s ≤ 1 / 2 * s := mul_le_mul_of_nonneg_right (by norm_num) s0.le
    linarith
  have hsh : 0 < R.val sh := by linarith
  have hd := R.div q sh n5.fin hs.fin hne (by
    apply le_roundBig
    have hq1 := n5.abs_val
    rw [abs_mul, hsS] at hq1
    have hq2 : s * |v - θ| ≤ 4e6 * 3.5 := mul_le_mul (sS.trans Sbig) hdiff (abs_nonneg _) (by norm_num)
    rw [abs_div, abs_of_pos hsh, div_le_iff₀ hsh]
    clear * - hq1 hq2 hsh1 Sbig
    norm_num at *; linarith)
  have hqs : 0 ≤ R.val (q / sh) := by rw [hd.2]; exact rnd_nonneg R (by positivity)
  have ha := R.add th (q / sh) ht n6.fin (by
    apply le_roundBig
    have h1 := abs_add_le (R.val th) (R.val (q / sh))
    have h2 := n6.abs_val
    rw [hθ] at h1 ⊢
    clear * - h1 h2 b3 hdiff ht2
    norm_num at *; linarith)
  rw [ha.2]
  calc R.val th = R.rnd (R.val th) := (R.val_rnd th ht).symm
    _ ≤ _ := R.mono (by linarith)

/-- The height of a point above the present line of sight, and the new angle. -/
theorem look (R : Rounding α) {qc sh th z hh : α} {s S κ h : ℝ} (H : LookSized s S κ h (R.val z)) (hqc : Near R qc (κ / 2) 1.3e-22)
    (hs : Near R sh s (2.1e-12 * S)) (ht : R.fin th) (ht2 : |R.val th| ≤ 2) (hz : R.fin z) (hn : Near R hh h 2.1e-11) :
    ∃ q, q = z - (qc * sh + th) * sh - hh ∧ Near R q (s * (elevation κ h s (R.val z) - R.val th)) (7e-12 * S + 7e-11) ∧
      (0 < R.val q → q /! sh = .ok (q / sh) ∧ R.fin (th + q / sh) ∧ R.val th ≤ R.val (th + q / sh) ∧
        |R.val (th + q / sh) - elevation κ h s (R.val z)| ≤ (1.6e-11 * S + 7.5e-11) / s) := by
  obtain ⟨x, hx⟩ : ∃ x, x = R.val z := ⟨_, rfl⟩
  obtain ⟨v, hv⟩ : ∃ v, v = elevation κ h s x := ⟨_, rfl⟩
  obtain ⟨θ, hθ⟩ : ∃ θ, θ = R.val th := ⟨_, rfl⟩
  have hview := H.view
  rw [← hx] at H hview
  rw [← hx, ← hv, ← hθ]
  rw [← hv] at hview
  rw [← hθ] at ht2
  obtain ⟨s1, sS, S1000, Sbig, hκ, hhb, hzb, hsl⟩ := H
  have s0 : 0 < s := by linarith
  have S1 : 1 ≤ S := by linarith
  have hκ2 : |κ / 2| ≤ 1.25e-7 := by
    rw [abs_div, abs_of_pos (by norm_num : (0:ℝ) < 2)]; norm_num at *; linarith
  have hss : |s| ≤ S := by rw [abs_of_pos s0]; exact sS
  have n1 : Near R (qc * sh) (κ / 2 * s) (3e-19 * S) :=
    hqc.mul hs hκ2 hss (M := 1.3e-7 * S) (by norm_num; nlinarith) (by norm_num at *; linarith) (by norm_num; nlinarith)
  have hκs : |κ / 2 * s| ≤ 0.5 := by
    rw [abs_mul]
    have := mul_le_mul hκ2 (hss.trans Sbig) (abs_nonneg s) (by norm_num)
    exact this.trans (by norm_num)
  have nth : Near R th θ 0 := by rw [hθ]; exact Near.self ht
  have hsum : |κ / 2 * s + θ| ≤ 2.5 := by
    have := abs_add_le (κ / 2 * s) θ
    norm_num at *; linarith
  have n2 : Near R (qc * sh + th) (κ / 2 * s + θ) 1.3e-12 :=
    n1.add nth (M := 2.6) (by norm_num at *; linarith) (by norm_num) (by norm_num at *; linarith)
  have n3 : Near R ((qc * sh + th) * sh) ((κ / 2 * s + θ) * s) (6.8e-12 * S) :=
    n2.mul hs hsum hss (M := 2.6 * S) (by norm_num; nlinarith) (by norm_num at *; linarith) (by norm_num; nlinarith)
  have hX : |(κ / 2 * s + θ) * s| ≤ 2.5 * S := by
    rw [abs_mul]; exact mul_le_mul hsum hss (abs_nonneg s) (by norm_num)
  have nz : Near R z x 0 := by rw [hx]; exact Near.self hz
  have n4 : Near R (z - (qc * sh + th) * sh) (x - (κ / 2 * s + θ) * s) (6.81e-12 * S + 1.1e-11) :=
    nz.sub n3 (M := 1e4 + 2.7 * S)
      (by have := abs_sub x ((κ / 2 * s + θ) * s); norm_num at *; linarith) (by norm_num at *; linarith) (by norm_num at *; linarith)
  have n5 : Near R (z - (qc * sh + th) * sh - hh) (x - (κ / 2 * s + θ) * s - h) (7e-12 * S + 7e-11) :=
    n4.sub hn (M := 3.1e4 + 2.7 * S)
      (by
        have := abs_sub x ((κ / 2 * s + θ) * s)
        have := abs_sub (x - (κ / 2 * s + θ) * s) h
        norm_num at *; linarith) (by norm_num at *; linarith) (by norm_num at *; linarith)
  have eq : x - (κ / 2 * s + θ) * s - h = s * (v - θ) := by
    rw [hv]; unfold elevation; field_simp; ring
  rw [eq] at n5
  refine ⟨_, rfl, n5, ?_⟩
  intro hq
  rw [hθ] at ht2 n5 ⊢
  exact look_angle R s1 sS S1000 Sbig hview ht2 rfl ht hs n5 hq

/-- The profile with the exact values of its entries. -/
noncomputable def valPfl (R : Rounding α) (p : Pfl α) : Pfl ℝ := { np := p.np, xi := R.val p.xi, z := p.z.map R.val }

theorem pfl_get {p : Pfl α} {j : ℕ} (h : j < p.z.length) : p.get ((j : ℤ) + 2) = .ok p.z[j] := by
  unfold Pfl.get
  have hl : p.flat.length = p.z.length + 2 := by simp [Pfl.flat]
  rw [pyGet_nonneg (by omega) (by omega)]
  congr 1

theorem valPfl_h (R : Rounding α) {p : Pfl α} {j : ℕ} (h : j < p.z.length) : (valPfl R p).h j = R.val p.z[j] := by
  unfold Pfl.h valPfl
  simp [List.getD, h]

/-- Sizes of a profile with `n` intervals seen from heights `za`, `zb`: intervals of at least a metre, at most 1000 of them and
4000 km, heights up to 10 km, antennas up to 20 km, slopes up to 45°. -/
structure HzSized (R : Rounding α) (p : Pfl α) (n : ℕ) (κ za zb : ℝ) : Prop where
  n1 : 1 ≤ n
  n1000 : n ≤ 1000
  len : n < p.z.length
  fxi : R.fin p.xi
  xi1 : 1 ≤ R.val p.xi
  span : n * R.val p.xi ≤ 4e6
  hκ : |κ| ≤ 2.5e-7
  hza : |za| ≤ 2e4
  hzb : |zb| ≤ 2e4
  fz : ∀ a ∈ p.z, R.fin a ∧ |R.val a| ≤ 1e4
  sa : ∀ j, 1 ≤ j → j < n → |(valPfl R p).h j - za| ≤ j * R.val p.xi
  sb : ∀ j, 1 ≤ j → j < n → |(valPfl R p).h j - zb| ≤ ((n : ℝ) - j) * R.val p.xi
  ends : |zb - za| ≤ n * R.val p.xi

/-- Loop invariant after `m` turns. -/
structure HzRound (R : Rounding α) (p : Pfl α) (n : ℕ) (κ za zb : ℝ) (m : ℕ) (s : HzSt α) : Prop where
  sa : Near R s.sa (m * R.val p.xi) (2e-15 * (m * (m * R.val p.xi)))
  sb : Near R s.sb (((n : ℝ) - m) * R.val p.xi) (2e-15 * ((m + 1) * (n * R.val p.xi)))
  ta : R.fin s.the.x0 ∧ |R.val s.the.x0| ≤ 2
  tb : R.fin s.the.x1 ∧ |R.val s.the.x1| ≤ 2
  fd : R.fin s.dl.x0 ∧ R.fin s.dl.x1
  a : NearHorizon (hzA (valPfl R p) κ za) (elevation κ za (n * R.val p.xi) zb) (fun j => j * R.val p.xi) (n * R.val p.xi) m 2e-10 1e-11
    (R.val s.the.x0) (R.val s.dl.x0)
  b : NearHorizon (hzB (valPfl R p) n κ zb) (elevation κ zb (n * R.val p.xi) za) (fun j => ((n : ℝ) - j) * R.val p.xi) (n * R.val p.xi) m 2e-8 1e-8
    (R.val s.the.x1) (R.val s.dl.x1)
  wq : s.wq = true → R.val s.the.x0 ≤ elevation κ za (n * R.val p.xi) zb + (1e-10 / (n * R.val p.xi) + 1e-14) ∧
    elevation κ zb (n * R.val p.xi) za ≤ R.val s.the.x1 + 2e-10

theorem _root_.Itm.Spec.NearHorizon.raise {view pos : ℕ → ℝ} {far full ε η θ d θ' d' : ℝ} {m : ℕ} (h : NearHorizon view far pos full m ε η θ d)
    (hθ : θ ≤ θ') (h1 : |θ' - view (m + 1)| ≤ ε) (hd : |d' - pos (m + 1)| ≤ η * pos (m + 1)) :
    NearHorizon view far pos full (m + 1) ε η θ' d' where
  far_le := by linarith [h.far_le]
  view_le := by
    intro j j1 j2
    rcases Nat.lt_or_ge m j with hj | hj
    · rw [show j = m + 1 by omega]; linarith [(abs_le.1 h1).1]
    · linarith [h.view_le j j1 hj]
  attained := .inr ⟨m + 1, by omega, le_rfl, h1, hd⟩

theorem _root_.Itm.Spec.NearHorizon.keep {view pos : ℕ → ℝ} {far full ε η θ d : ℝ} {m : ℕ} (h : NearHorizon view far pos full m ε η θ d)
    (h1 : view (m + 1) ≤ θ + ε) : NearHorizon view far pos full (m + 1) ε η θ d where
  far_le := h.far_le
  view_le := by
    intro j j1 j2
    rcases Nat.lt_or_ge m j with hj | hj
    · rw [show j = m + 1 by omega]; exact h1
    · exact h.view_le j j1 hj
  attained := by
    rcases h.attained with h | ⟨j, j1, j2, h⟩
    · exact .inl h
    · exact .inr ⟨j, j1, by omega, h⟩

/-- A point is as far above the line of sight as seen from either end. -/
theorem excess_eq {κ za zb s t z : ℝ} (hs : 0 < s) (ht : 0 < t) :
    s * (elevation κ za s z - elevation κ za (s + t) zb) = t * (elevation κ zb t z - elevation κ zb (s + t) za) := by
  have hst : s + t ≠ 0 := by positivity
  unfold elevation
  field_simp
  ring

/-- The errors in the angles, from the distances `s` and `t` of a point from the ends. -/
structure HzErrors (s t D : ℝ) : Prop where
  pos : 2.1e-12 * D ≤ 1e-8 * t
  hitA : (1.6e-11 * s + 7.5e-11) / s ≤ 2e-10
  hitB : (1.6e-11 * D + 7.5e-11) / t ≤ 2e-8
  missA : ∀ A θ : ℝ, s * (A - θ) ≤ 7e-12 * s + 7e-11 → A ≤ θ + 2e-10
  missB : ∀ A θ : ℝ, t * (A - θ) ≤ 7e-12 * D + 7e-11 → A ≤ θ + 2e-8
  skip : ∀ A B F G θ θ' : ℝ, s * (A - F) = t * (B - G) → s * (A - θ) ≤ 7e-12 * s + 7e-11 → θ ≤ F + (1e-10 / D + 1e-14) → G ≤ θ' + 2e-10 →
    B ≤ θ' + 2e-8

theorem hz_errors {s t D : ℝ} (hs : 1 ≤ s) (ht : 1 ≤ t) (hD : s + t = D) (h : D ≤ 1000 * t) : HzErrors s t D where
  pos := by norm_num at *; linarith
  hitA := by rw [div_le_iff₀ (by linarith)]; norm_num at *; linarith
  hitB := by rw [div_le_iff₀ (by linarith)]; norm_num at *; linarith
  missA := by
    intro A θ h1
    by_contra hc
    push Not at hc
    have : s * 2e-10 < s * (A - θ) := mul_lt_mul_of_pos_left (by linarith) (by linarith)
    norm_num at *; linarith
  missB := by
    intro A θ h1
    by_contra hc
    push Not at hc
    have : t * 2e-8 < t * (A - θ) := mul_lt_mul_of_pos_left (by linarith) (by linarith)
    norm_num at *; linarith
  skip := by
    intro A B F G θ θ' he h1 h2 h3
    by_contra hc
    push Not at hc
    have e1 : t * (2e-8 - 2e-10) < t * (B - G) := mul_lt_mul_of_pos_left (by linarith) (by linarith)
    have e2 : s * (θ - F) ≤ s * (1e-10 / D + 1e-14) := mul_le_mul_of_nonneg_left (by linarith) (by linarith)
    have e3 : s * (1e-10 / D) ≤ 1e-10 := by
      rw [mul_div_assoc', div_le_iff₀ (by linarith), mul_comm]
      exact mul_le_mul_of_nonneg_left (by linarith) (by norm_num)
    have e4 : s * (A - F) = s * (A - θ) + s * (θ - F) := by ring
    have e5 : s * (1e-10 / D + 1e-14) = s * (1e-10 / D) + 1e-14 * s := by ring
    generalize s * (1e-10 / D) = w at *
    norm_num at *; linarith

set_option maxHeartbeats 1000000 in
theorem hznsStep_round (R : Rounding α) {p : Pfl α} {n m : ℕ} {κ za zb : ℝ} {qc a b : α} {s : HzSt α} (H : HzSized R p n κ za zb)
    (hqc : Near R qc (κ / 2) 1.3e-22) (ha : Near R a za 2.1e-11) (hb : Near R b zb 2.1e-11) (hm : m + 1 < n)
    (h : HzRound R p n κ za zb m s) :
    ∃ s', hznsStep p qc a b ((m : ℤ) + 2) s = .ok s' ∧ HzRound R p n κ za zb (m + 1) s' := by
  obtain ⟨sa, sb, ⟨t0, t1⟩, ⟨d0, d1⟩, wq⟩ := s
  obtain ⟨isa, isb, ⟨f0, k0⟩, ⟨f1, k1⟩, ⟨fd0, fd1⟩, ia, ib, iw⟩ := h
  obtain ⟨n1, n1000, len, fxi, xi1, span, hκ, hza, hzb, fz, hsa, hsb, ends⟩ := H
  dsimp only at isa isb ia ib iw f0 f1 k0 k1 fd0 fd1
  have hnR : (n : ℝ) ≤ 1000 := by exact_mod_cast n1000
  have hmR : ((m + 1 : ℕ) : ℝ) + 1 ≤ n := by exact_mod_cast (by omega : m + 1 + 1 ≤ n)
  have hm0 : (0 : ℝ) ≤ m := by positivity
  have hxi := Near.self fxi
  have hlen : m + 1 < p.z.length := by omega
  have hg : p.get ((m : ℤ) + 2 + 1) = .ok p.z[m + 1] := by
    have := pfl_get (p := p) (j := m + 1) hlen
    rw [← this]; congr 1
  obtain ⟨fzz, kz⟩ := fz p.z[m + 1] (List.getElem_mem _)
  have vz := valPfl_h R hlen
  have hsa1 := hsa (m + 1) (by omega) hm
  have hsb1 := hsb (m + 1) (by omega) hm
  have ea : hzA (valPfl R p) κ za (m + 1) = elevation κ za (((m + 1 : ℕ) : ℝ) * R.val p.xi) (R.val p.z[m + 1]) := by
    unfold hzA; rw [vz]; rfl
  have eb : hzB (valPfl R p) n κ zb (m + 1) = elevation κ zb (((n : ℝ) - ((m + 1 : ℕ) : ℝ)) * R.val p.xi) (R.val p.z[m + 1]) := by
    unfold hzB; rw [vz]; rfl
  rw [vz] at hsa1 hsb1
  generalize hξ : R.val p.xi = ξ at *
  obtain ⟨c, hc⟩ : ∃ c, c = ((m + 1 : ℕ) : ℝ) := ⟨_, rfl⟩
  have hcm : c = m + 1 := by rw [hc]; push_cast; ring
  have ξ0 : 0 < ξ := by linarith
  have nsa : Near R (sa + p.xi) (c * ξ) (2e-15 * (c * (c * ξ))) := by
    rw [show c * ξ = m * ξ + ξ by rw [hcm]; ring]
    have hmξ : 0 ≤ m * ξ := by positivity
    have hmm : m * (m * ξ) ≤ 1000 * (m * ξ) := mul_le_mul_of_nonneg_right (by linarith) hmξ
    refine isa.add hxi (M := 1.1 * (m * ξ + ξ)) ?_ ?_ ?_
    · rw [abs_of_nonneg (by positivity)]
      norm_num at *; linarith
    · have : m * ξ + ξ ≤ n * ξ := by rw [show m * ξ + ξ = (m + 1) * ξ by ring]; gcongr; linarith
      norm_num at *; linarith
    · rw [show c * (m * ξ + ξ) = m * (m * ξ) + 2 * (m * ξ) + ξ by rw [hcm]; ring]
      norm_num at *; linarith
  have nsb : Near R (sb - p.xi) (((n : ℝ) - c) * ξ) (2e-15 * ((c + 1) * (n * ξ))) := by
    rw [show ((n : ℝ) - c) * ξ = (n - m) * ξ - ξ by rw [hcm]; ring]
    refine isb.sub hxi (M := 1.1 * (n * ξ)) ?_ ?_ ?_
    · rw [abs_of_nonneg (by nlinarith)]
      have : (m + 1) * (n * ξ) ≤ 1000 * (n * ξ) := mul_le_mul_of_nonneg_right (by linarith) (by positivity)
      have : 0 ≤ m * ξ := by positivity
      norm_num at *; nlinarith
    · norm_num at *; linarith
    · rw [show (c + 1) * (n * ξ) = (m + 1) * (n * ξ) + n * ξ by rw [hcm]; ring]
      have : 1 ≤ n * ξ := by nlinarith
      norm_num at *; linarith
  rw [← hc] at ea eb hsa1 hsb1 hmR
  have cs : c * ξ + (n - c) * ξ = n * ξ := by ring
  have hs1 : 1 ≤ c * ξ := by rw [hcm]; nlinarith
  have ht1 : ξ ≤ (n - c) * ξ := by nlinarith
  have nsa' : Near R (sa + p.xi) (c * ξ) (2.1e-12 * (c * ξ)) := nsa.mono (by
    have : c * (c * ξ) ≤ 1000 * (c * ξ) := mul_le_mul_of_nonneg_right (by linarith) (by linarith)
    norm_num at *; linarith)
  have nsb' : Near R (sb - p.xi) ((n - c) * ξ) (2.1e-12 * (n * ξ)) := nsb.mono (by
    have : (c + 1) * (n * ξ) ≤ 1001 * (n * ξ) := mul_le_mul_of_nonneg_right (by linarith) (by positivity)
    norm_num at *; linarith)
  have La : LookSized (c * ξ) (c * ξ) κ za (R.val p.z[m + 1]) := by
    refine ⟨hs1, le_rfl, ?_, ?_, hκ, hza, kz, hsa1⟩ <;> norm_num at * <;> linarith
  have Lb : LookSized ((n - c) * ξ) (n * ξ) κ zb (R.val p.z[m + 1]) := by
    refine ⟨by linarith, by linarith, ?_, span, hκ, hzb, kz, hsb1⟩
    have : n * ξ ≤ 1000 * ξ := mul_le_mul_of_nonneg_right hnR ξ0.le
    linarith
  obtain ⟨q, hq, nq, hit⟩ := look R La hqc nsa' f0 k0 fzz ha
  obtain ⟨r, hr, nr, hit'⟩ := look R Lb hqc nsb' f1 k1 fzz hb
  have va := La.view
  have vb := Lb.view
  rw [← ea] at nq hit va
  rw [← eb] at nr hit' vb
  have hex := excess_eq (κ := κ) (za := za) (zb := zb) (z := R.val p.z[m + 1]) (by linarith : 0 < c * ξ) (by linarith : 0 < (n - c) * ξ)
  rw [cs, ← ea, ← eb] at hex
  have E := hz_errors hs1 (by linarith) cs (by
    have : n * ξ ≤ 1000 * ξ := mul_le_mul_of_nonneg_right hnR ξ0.le
    linarith)
  have hz0 := fin_zero R
  have pa : |R.val (sa + p.xi) - c * ξ| ≤ 1e-11 * (c * ξ) := nsa'.err.trans (by norm_num at *; linarith)
  have pb : |R.val (sb - p.xi) - (n - c) * ξ| ≤ 1e-8 * ((n - c) * ξ) := nsb'.err.trans E.pos
  have hitA : 0 < R.val q → R.fin (t0 + q / (sa + p.xi)) ∧ |R.val (t0 + q / (sa + p.xi))| ≤ 2 ∧
      ∀ d, |R.val d - c * ξ| ≤ 1e-11 * (c * ξ) → NearHorizon (hzA (valPfl R p) κ za) (elevation κ za (n * ξ) zb) (fun j => j * ξ) (n * ξ) (m + 1)
        2e-10 1e-11 (R.val (t0 + q / (sa + p.xi))) (R.val d) := by
    intro hpos
    obtain ⟨-, h1, h2, h3⟩ := hit hpos
    have h3 := h3.trans E.hitA
    refine ⟨h1, ?_, fun d hd => ia.raise h2 h3 (by rw [← hc]; exact hd)⟩
    have := abs_sub_abs_le_abs_sub (R.val (t0 + q / (sa + p.xi))) (hzA (valPfl R p) κ za (m + 1))
    norm_num at *; linarith
  have hitB : 0 < R.val r → R.fin (t1 + r / (sb - p.xi)) ∧ |R.val (t1 + r / (sb - p.xi))| ≤ 2 ∧
      ∀ d, |R.val d - (n - c) * ξ| ≤ 1e-8 * ((n - c) * ξ) → NearHorizon (hzB (valPfl R p) n κ zb) (elevation κ zb (n * ξ) za)
        (fun j => ((n : ℝ) - j) * ξ) (n * ξ) (m + 1) 2e-8 1e-8 (R.val (t1 + r / (sb - p.xi))) (R.val d) := by
    intro hpos
    obtain ⟨-, h1, h2, h3⟩ := hit' hpos
    have h3 := h3.trans E.hitB
    refine ⟨h1, ?_, fun d hd => ib.raise h2 h3 (by rw [← hc]; exact hd)⟩
    have := abs_sub_abs_le_abs_sub (R.val (t1 + r / (sb - p.xi))) (hzB (valPfl R p) n κ zb (m + 1))
    norm_num at *; linarith
  have missA : ¬ 0 < R.val q → NearHorizon (hzA (valPfl R p) κ za) (elevation κ za (n * ξ) zb) (fun j => j * ξ) (n * ξ) (m + 1)
        2e-10 1e-11 (R.val t0) (R.val d0) := fun h0 => ia.keep (E.missA _ _ (by linarith [nq.ge]))
  have missB : ¬ 0 < R.val r → NearHorizon (hzB (valPfl R p) n κ zb) (elevation κ zb (n * ξ) za) (fun j => ((n : ℝ) - j) * ξ) (n * ξ) (m + 1)
        2e-8 1e-8 (R.val t1) (R.val d1) := fun h0 => ib.keep (E.missB _ _ (by linarith [nr.ge]))
  have nsa2 : Near R (sa + p.xi) (((m + 1 : ℕ) : ℝ) * ξ) (2e-15 * (((m + 1 : ℕ) : ℝ) * (((m + 1 : ℕ) : ℝ) * ξ))) := by rw [← hc]; exact nsa
  have nsb2 : Near R (sb - p.xi) (((n : ℝ) - ((m + 1 : ℕ) : ℝ)) * ξ) (2e-15 * ((((m + 1 : ℕ) : ℝ) + 1) * (n * ξ))) := by rw [← hc]; exact nsb
  subst hξ
  unfold hznsStep
  dsimp only
  rw [hg, ok_bind]
  simp only [← hq]
  simp only [R.lt _ _ hz0.1 nq.fin, hz0.2]
  by_cases hA : 0 < R.val q
  · obtain ⟨g1, g2, g3⟩ := hitA hA
    rw [if_pos hA, (hit hA).1, ok_bind, pure_ok, ok_bind]
    simp only [if_true, ok_bind, ← hr]
    simp only [R.lt _ _ hz0.1 nr.fin, hz0.2]
    by_cases hB : 0 < R.val r
    · obtain ⟨g1', g2', g3'⟩ := hitB hB
      rw [if_pos hB, (hit' hB).1, ok_bind, pure_ok]
      exact ⟨_, rfl, nsa2, nsb2, ⟨g1, g2⟩, ⟨g1', g2'⟩, ⟨nsa.fin, nsb.fin⟩, g3 _ pa, g3' _ pb, by simp⟩
    · rw [if_neg hB, pure_ok]
      exact ⟨_, rfl, nsa2, nsb2, ⟨g1, g2⟩, ⟨f1, k1⟩, ⟨nsa.fin, fd1⟩, g3 _ pa, missB hB, by simp⟩
  · rw [if_neg hA, pure_ok, ok_bind]
    cases wq
    · simp only [if_true, ok_bind, ← hr]
      simp only [R.lt _ _ hz0.1 nr.fin, hz0.2]
      by_cases hB : 0 < R.val r
      · obtain ⟨g1', g2', g3'⟩ := hitB hB
        rw [if_pos hB, (hit' hB).1, ok_bind, pure_ok]
        exact ⟨_, rfl, nsa2, nsb2, ⟨f0, k0⟩, ⟨g1', g2'⟩, ⟨fd0, nsb.fin⟩, missA hA, g3' _ pb, by simp⟩
      · rw [if_neg hB, pure_ok]
        exact ⟨_, rfl, nsa2, nsb2, ⟨f0, k0⟩, ⟨f1, k1⟩, ⟨fd0, fd1⟩, missA hA, missB hB, by simp⟩
    · rw [if_neg (by simp), pure_ok]
      obtain ⟨w1, w2⟩ := iw rfl
      exact ⟨_, rfl, nsa2, nsb2, ⟨f0, k0⟩, ⟨f1, k1⟩, ⟨fd0, fd1⟩, missA hA,
        ib.keep (E.skip _ _ _ _ _ _ hex (by linarith [nq.ge]) w1 w2), fun _ => ⟨w1, w2⟩⟩

theorem hznsLoop_round (R : Rounding α) {p : Pfl α} {n : ℕ} {κ za zb : ℝ} {qc a b : α} (H : HzSized R p n κ za zb)
    (hqc : Near R qc (κ / 2) 1.3e-22) (ha : Near R a za 2.1e-11) (hb : Near R b zb 2.1e-11) (k : ℕ) :
    ∀ {m : ℕ} {s : HzSt α}, m + k < n → HzRound R p n κ za zb m s →
      ∃ s', hznsLoop p qc a b k ((m : ℤ) + 2) s = .ok s' ∧ HzRound R p n κ za zb (m + k) s' := by
  induction k with
  | zero => intro m s _ h; exact ⟨s, rfl, h⟩
  | succ k ih =>
    intro m s hm h
    obtain ⟨s', e1, h'⟩ := hznsStep_round R H hqc ha hb (by omega) h
    obtain ⟨s'', e2, h''⟩ := ih (m := m + 1) (by omega) h'
    refine ⟨s'', ?_, by rwa [show m + (k + 1) = m + 1 + k by omega]⟩
    unfold hznsLoop
    rw [e1, ok_bind, ← e2]
    congr 1

/-- The angles of the terminals seen from each other. -/
theorem far_round (R : Rounding α) {qc a b dist : α} {κ za zb D : ℝ} (hD1 : 1 ≤ D) (hD : D ≤ 4e6) (hκ : |κ| ≤ 2.5e-7) (hza : |za| ≤ 2e4)
    (hzb : |zb| ≤ 2e4) (hqc : Near R qc (κ / 2) 1.3e-22) (ha : Near R a za 2.1e-11) (hb : Near R b zb 2.1e-11) (hd : Near R dist D (2e-15 * D))
    (ends : |zb - za| ≤ D) : ∃ t, (b - a) /! dist = .ok t ∧
      Near R (t - qc * dist) (elevation κ za D zb) (1e-10 / D + 1e-14) ∧ Near R (-t - qc * dist) (elevation κ zb D za) (1e-10 / D + 1e-14) := by
  have D0 : 0 < D := by linarith
  have hab := abs_of_pos D0
  have hκ2 : |κ / 2| ≤ 1.25e-7 := by
    rw [abs_div, abs_of_pos (by norm_num : (0:ℝ) < 2)]; norm_num at *; linarith
  have n1 : Near R (b - a) (zb - za) 8.4e-11 :=
    hb.sub ha (M := 4.1e4) (by have := abs_sub zb za; norm_num at *; linarith) (by norm_num) (by norm_num)
  have hq1 : |(zb - za) / D| ≤ 1 := by rw [abs_div, hab, div_le_one D0]; exact ends
  have hr : 1 / D ≤ 1 := by rw [div_le_one D0]; exact hD1
  have hr0 : 0 < 1 / D := by positivity
  have hquot : (8.4e-11 + 1 * (2e-15 * D)) / (D - 2e-15 * D) ≤ 8.5e-11 * (1 / D) + 2.1e-15 := by
    rw [show 8.5e-11 * (1 / D) + 2.1e-15 = (8.5e-11 + 2.1e-15 * D) / D by field_simp, div_le_div_iff₀ (by norm_num; linarith) D0]
    have := mul_pos D0 D0
    norm_num; nlinarith
  obtain ⟨n2, hne⟩ := n1.div hd (Q := 1) (m := D) (M := 1.1) (g := 8.5e-11 * (1 / D) + 3.3e-15) hq1 hab.ge (by norm_num; linarith)
    (by
      generalize (8.4e-11 + 1 * (2e-15 * D)) / (D - 2e-15 * D) = Q at *
      clear * - hquot hr; norm_num at *; linarith) (by norm_num)
    (by
      generalize (8.4e-11 + 1 * (2e-15 * D)) / (D - 2e-15 * D) = Q at *
      clear * - hquot hr; norm_num at *; linarith)
  have n3 : Near R (qc * dist) (κ / 2 * D) 2.3e-15 :=
    hqc.mul hd hκ2 hab.le (M := 0.6) (by norm_num at *; nlinarith) (by norm_num) (by norm_num at *; nlinarith)
  have hk : |κ / 2 * D| ≤ 0.5 := by
    rw [abs_mul, hab]
    exact (mul_le_mul hκ2 hD D0.le (by norm_num)).trans (by norm_num)
  have ex : 1e-10 / D = 1e-10 * (1 / D) := by ring
  rw [ex]
  generalize hX : (zb - za) / D = X at *
  have eX : (za - zb) / D = -X := by rw [← hX]; ring
  generalize 1 / D = r at *
  refine ⟨_, pyDiv_round hd.fin hne, ?_, ?_⟩
  · unfold elevation
    rw [hX]
    refine n2.sub n3 (M := 1.6) ?_ (by norm_num) ?_
    · have := abs_sub X (κ / 2 * D)
      clear * - this hq1 hk hr
      norm_num at *; linarith
    · clear * - hr0
      norm_num at *; linarith
  · unfold elevation
    rw [eX]
    refine n2.neg.sub n3 (M := 1.6) ?_ (by norm_num) ?_
    · have := abs_sub (-X) (κ / 2 * D)
      rw [abs_neg] at this
      clear * - this hq1 hk hr
      norm_num at *; linarith
    · clear * - hr0
      norm_num at *; linarith

theorem horizons_round (R : Rounding α) {p : Pfl α} {n : ℕ} {hg : Pair α} {dist gme : α} (hnp : p.np = n) (f0 : R.fin hg.x0) (f1 : R.fin hg.x1)
    (k0 : |R.val hg.x0| ≤ 1e4) (k1 : |R.val hg.x1| ≤ 1e4) (hg' : R.fin gme)
    (H : HzSized R p n (R.val gme) ((valPfl R p).h 0 + R.val hg.x0) ((valPfl R p).h n + R.val hg.x1))
    (hdist : R.fin dist) (hd : |R.val dist - n * R.val p.xi| ≤ 2e-15 * (n * R.val p.xi)) :
    ∃ the dl : Pair α, hzns p dist hg gme = .ok (the, dl) ∧ (R.fin the.x0 ∧ R.fin the.x1 ∧ R.fin dl.x0 ∧ R.fin dl.x1) ∧
      NearHorizon (hzA (valPfl R p) (R.val gme) ((valPfl R p).h 0 + R.val hg.x0))
        (elevation (R.val gme) ((valPfl R p).h 0 + R.val hg.x0) (n * R.val p.xi) ((valPfl R p).h n + R.val hg.x1))
        (fun j => j * R.val p.xi) (n * R.val p.xi) (n - 1) 2e-10 1e-11 (R.val the.x0) (R.val dl.x0) ∧
      NearHorizon (hzB (valPfl R p) n (R.val gme) ((valPfl R p).h n + R.val hg.x1))
        (elevation (R.val gme) ((valPfl R p).h n + R.val hg.x1) (n * R.val p.xi) ((valPfl R p).h 0 + R.val hg.x0))
        (fun j => ((n : ℝ) - j) * R.val p.xi) (n * R.val p.xi) (n - 1) 2e-8 1e-8 (R.val the.x1) (R.val dl.x1) := by
  have hl0 : 0 < p.z.length := by have := H.len; omega
  have v0 := valPfl_h R hl0
  have vn := valPfl_h R H.len
  have hD1 : 1 ≤ n * R.val p.xi := by
    have h1 : (1 : ℝ) ≤ n := by exact_mod_cast H.n1
    have := H.xi1; nlinarith
  have g0 : p.get 2 = .ok p.z[0] := by
    have := pfl_get hl0
    rw [← this]; congr 1
  have gn : p.get (p.np + 2) = .ok (p.z[n]'H.len) := by rw [hnp]; exact pfl_get H.len
  have hend : ∀ (j : ℕ) (hj : j < p.z.length) (x : α), R.fin x → |R.val x| ≤ 1e4 → Near R (p.z[j] + x) ((valPfl R p).h j + R.val x) 2.1e-11 := by
    intro j hj x fx kx
    obtain ⟨fz, kz⟩ := H.fz p.z[j] (List.getElem_mem _)
    rw [valPfl_h R hj]
    refine (Near.self fz).add (Near.self fx) (M := 2e4) ?_ (by norm_num) (by norm_num)
    have := abs_add_le (R.val p.z[j]) (R.val x)
    norm_num at *; linarith
  have ha := hend 0 hl0 hg.x0 f0 k0
  have hb := hend n H.len hg.x1 f1 k1
  have hqc : Near R (0.5 * gme) (R.val gme / 2) 1.3e-22 := by
    have h5 := Near.lit_exact R (m := 5) (s := true) (k := 1) 1 (-1) (by norm_num) (by norm_num) (by norm_num) (by norm_num)
    have e : R.val gme / 2 = 0.5 * R.val gme := by rw [show (0.5 : ℝ) = 1 / 2 by norm_num]; ring
    rw [e]
    exact (Near.of_eq h5.1 h5.2).mul (Near.self hg') (X := 0.5) (Y := 2.5e-7) (M := 1.25e-7 ) (by norm_num [abs_of_nonneg]) H.hκ (by norm_num)
      (by norm_num) (by norm_num)
  generalize hza : (valPfl R p).h 0 + R.val hg.x0 = za at *
  generalize hzb : (valPfl R p).h n + R.val hg.x1 = zb at *
  obtain ⟨t, et, na, nb⟩ := far_round R hD1 H.span H.hκ H.hza H.hzb hqc ha hb ⟨hdist, hd⟩ H.ends
  have hk : ∀ u v : ℝ, |u - v| ≤ n * R.val p.xi → |elevation (R.val gme) v (n * R.val p.xi) u| ≤ 1.6 := by
    intro u v huv
    have D0 : 0 < n * R.val p.xi := by linarith
    unfold elevation
    have h1 : |(u - v) / (n * R.val p.xi)| ≤ 1 := by rw [abs_div, abs_of_pos D0, div_le_one D0]; exact huv
    have h2 : |R.val gme / 2 * (n * R.val p.xi)| ≤ 0.5 := by
      have hκ2 : |R.val gme / 2| ≤ 1.25e-7 := by
        have := H.hκ
        rw [abs_div, abs_of_pos (by norm_num : (0:ℝ) < 2)]; norm_num at *; linarith
      rw [abs_mul, abs_of_pos D0]
      exact (mul_le_mul hκ2 H.span D0.le (by norm_num)).trans (by norm_num)
    have := abs_sub ((u - v) / (n * R.val p.xi)) (R.val gme / 2 * (n * R.val p.xi))
    clear * - this h1 h2
    norm_num at *; linarith
  have ka := hk zb za H.ends
  have kb := hk za zb (by rw [abs_sub_comm]; exact H.ends)
  have hsm : 1e-10 / (n * R.val p.xi) + 1e-14 ≤ 2e-10 := by
    have : 1e-10 / (n * R.val p.xi) ≤ 1e-10 := div_le_self (by norm_num) hD1
    generalize 1e-10 / (n * R.val p.xi) = r at *
    clear * - this; norm_num at *; linarith
  have hbd : ∀ {x : α} {y : ℝ}, Near R x y 2e-10 → |y| ≤ 1.6 → |R.val x| ≤ 2 := by
    intro x y h hy
    have := h.err
    have := abs_add_le (R.val x - y) y
    rw [sub_add_cancel] at this
    norm_num at *; linarith
  have na' := na.mono hsm
  have nb' := nb.mono hsm
  have hsm2 : 2e-15 * (n * R.val p.xi) ≤ 1e-11 * (n * R.val p.xi) := by
    have : 0 ≤ n * R.val p.xi := by linarith
    generalize n * R.val p.xi = D at *
    norm_num; linarith
  have inv0 : HzRound R p n (R.val gme) za zb 0
      { sa := 0.0, sb := dist, the := ⟨t - 0.5 * gme * dist, -t - 0.5 * gme * dist⟩, dl := ⟨dist, dist⟩, wq := true } := by
    refine ⟨?_, ?_, ⟨na.fin, ?_⟩, ⟨nb.fin, ?_⟩, ⟨hdist, hdist⟩, ⟨?_, ?_, .inl ⟨na'.err, hd.trans hsm2⟩⟩, ⟨?_, ?_, .inl ⟨?_, ?_⟩⟩, fun _ => ⟨?_, ?_⟩⟩
    · obtain ⟨f, v⟩ := fin_zero R
      exact ⟨f, by rw [v]; simp⟩
    · exact ⟨hdist, by simpa using hd⟩
    · exact hbd na' ka
    · exact hbd nb' kb
    · linarith [(abs_le.1 na'.err).1]
    · intro j j1 j2; omega
    · have := (abs_le.1 nb'.err).1
      clear * - this; norm_num at *; linarith
    · intro j j1 j2; omega
    · exact nb'.err.trans (by norm_num)
    · exact hd.trans (mul_le_mul_of_nonneg_right (by norm_num) (by linarith))
    · linarith [(abs_le.1 na.err).2]
    · linarith [(abs_le.1 nb'.err).1]
  unfold hzns
  rw [g0, ok_bind, gn, ok_bind]
  dsimp only
  rw [et, ok_bind]
  by_cases h2 : 2 ≤ p.np
  · rw [if_pos h2]
    obtain ⟨s', e, h'⟩ := hznsLoop_round R H hqc ha hb (n - 1) (by have := H.n1; omega) inv0
    rw [show (p.np - 1).toNat = n - 1 by omega, show (2 : ℤ) = ((0 : ℕ) : ℤ) + 2 by simp, e, ok_bind]
    rw [Nat.zero_add] at h'
    exact ⟨s'.the, s'.dl, rfl, ⟨h'.ta.1, h'.tb.1, h'.fd.1, h'.fd.2⟩, h'.a, h'.b⟩
  · rw [if_neg h2, pure_ok, ok_bind]
    have : n - 1 = 0 := by omega
    rw [this]
    exact ⟨_, _, rfl, ⟨na.fin, nb.fin, hdist, hdist⟩, inv0.a, inv0.b⟩

/-- **C83** The horizons found with rounding arithmetic: for any profile of at most 1000 intervals of at least a metre and at most
4000 km in all, heights up to 10 km and slopes up to 45°, the run succeeds with finite results; each angle is the largest elevation up to `2e-10`
(first terminal) and `2e-8` radians (second terminal), and each horizon distance is that of a point which attains it. -/
theorem C83_horizons (R : Rounding α) {p : Pfl α} {n : ℕ} {hg : Pair α} {dist gme : α} (hnp : p.np = n) (f0 : R.fin hg.x0) (f1 : R.fin hg.x1)
    (k0 : |R.val hg.x0| ≤ 1e4) (k1 : |R.val hg.x1| ≤ 1e4) (hg' : R.fin gme)
    (H : HzSized R p n (R.val gme) ((p.z.map R.val).getD 0 0 + R.val hg.x0) ((p.z.map R.val).getD n 0 + R.val hg.x1))
    (hdist : R.fin dist) (hd : |R.val dist - n * R.val p.xi| ≤ 2e-15 * (n * R.val p.xi)) :
    ∃ ta tb da db : α, hzns p dist hg gme = .ok (⟨ta, tb⟩, ⟨da, db⟩) ∧ (R.fin ta ∧ R.fin tb ∧ R.fin da ∧ R.fin db) ∧
      NearHorizon (fun j => elevation (R.val gme) ((p.z.map R.val).getD 0 0 + R.val hg.x0) (j * R.val p.xi) ((p.z.map R.val).getD j 0))
        (elevation (R.val gme) ((p.z.map R.val).getD 0 0 + R.val hg.x0) (n * R.val p.xi) ((p.z.map R.val).getD n 0 + R.val hg.x1))
        (fun j => j * R.val p.xi) (n * R.val p.xi) (n - 1) 2e-10 1e-11 (R.val ta) (R.val da) ∧
      NearHorizon (fun j => elevation (R.val gme) ((p.z.map R.val).getD n 0 + R.val hg.x1) (((n : ℝ) - j) * R.val p.xi) ((p.z.map R.val).getD j 0))
        (elevation (R.val gme) ((p.z.map R.val).getD n 0 + R.val hg.x1) (n * R.val p.xi) ((p.z.map R.val).getD 0 0 + R.val hg.x0))
        (fun j => ((n : ℝ) - j) * R.val p.xi) (n * R.val p.xi) (n - 1) 2e-8 1e-8 (R.val tb) (R.val db) := by
  obtain ⟨⟨ta, tb⟩, ⟨da, db⟩, e, h⟩ := horizons_round R hnp f0 f1 k0 k1 hg' H hdist hd
  exact ⟨ta, tb, da, db, e, h⟩

/-- **C83** The angles are those of exact arithmetic on the same values, up to `2e-10` and `2e-8` radians; where the exact horizon of
a terminal stands out by more than twice that, so is its distance, up to the fraction `1e-11` and `1e-8`. -/
theorem C83_exact (R : Rounding α) {p : Pfl α} {n : ℕ} {hg : Pair α} {dist gme : α} (hnp : p.np = n) (f0 : R.fin hg.x0) (f1 : R.fin hg.x1)
    (k0 : |R.val hg.x0| ≤ 1e4) (k1 : |R.val hg.x1| ≤ 1e4) (hg' : R.fin gme)
    (H : HzSized R p n (R.val gme) ((p.z.map R.val).getD 0 0 + R.val hg.x0) ((p.z.map R.val).getD n 0 + R.val hg.x1))
    (hdist : R.fin dist) (hd : |R.val dist - n * R.val p.xi| ≤ 2e-15 * (n * R.val p.xi)) :
    ∃ the dl : Pair α, ∃ the' dl' : Pair ℝ, hzns p dist hg gme = .ok (the, dl) ∧
      hzns ({ np := p.np, xi := R.val p.xi, z := p.z.map R.val } : Pfl ℝ) (n * R.val p.xi) ⟨R.val hg.x0, R.val hg.x1⟩ (R.val gme) = .ok (the', dl') ∧
      |R.val the.x0 - the'.x0| ≤ 2e-10 ∧ |R.val the.x1 - the'.x1| ≤ 2e-8 ∧
      ((dl'.x0 ≠ n * R.val p.xi →
          elevation (R.val gme) ((p.z.map R.val).getD 0 0 + R.val hg.x0) (n * R.val p.xi) ((p.z.map R.val).getD n 0 + R.val hg.x1) + 4e-10 < the'.x0) →
        (∀ j : ℕ, 1 ≤ j → j ≤ n - 1 → dl'.x0 ≠ j * R.val p.xi →
          elevation (R.val gme) ((p.z.map R.val).getD 0 0 + R.val hg.x0) (j * R.val p.xi) ((p.z.map R.val).getD j 0) + 4e-10 < the'.x0) →
        |R.val dl.x0 - dl'.x0| ≤ 1e-11 * dl'.x0) ∧
      ((dl'.x1 ≠ n * R.val p.xi →
          elevation (R.val gme) ((p.z.map R.val).getD n 0 + R.val hg.x1) (n * R.val p.xi) ((p.z.map R.val).getD 0 0 + R.val hg.x0) + 4e-8 < the'.x1) →
        (∀ j : ℕ, 1 ≤ j → j ≤ n - 1 → dl'.x1 ≠ ((n : ℝ) - j) * R.val p.xi →
          elevation (R.val gme) ((p.z.map R.val).getD n 0 + R.val hg.x1) (((n : ℝ) - j) * R.val p.xi) ((p.z.map R.val).getD j 0) + 4e-8 < the'.x1) →
        |R.val dl.x1 - dl'.x1| ≤ 1e-8 * dl'.x1) := by
  obtain ⟨ta, tb, da, db, e, -, ha, hb⟩ := C83_horizons R hnp f0 f1 k0 k1 hg' H hdist hd
  have hx : 0 < R.val p.xi := by linarith [H.xi1]
  obtain ⟨the', dl', e', ha', hb'⟩ := hzns_ok (p := valPfl R p) (hg := ⟨R.val hg.x0, R.val hg.x1⟩) (κ := R.val gme) H.n1 hnp hx
    (by unfold valPfl; simpa using H.len)
  have t1 : (2 : ℝ) * 2e-10 = 4e-10 := by norm_num
  have t2 : (2 : ℝ) * 2e-8 = 4e-8 := by norm_num
  refine ⟨_, _, the', dl', e, e', ha.angle ha', hb.angle hb', fun h1 h2 => ha.distance ha' ?_ ?_, fun h1 h2 => hb.distance hb' ?_ ?_⟩
  · rw [t1]; exact h1
  · rw [t1]; exact h2
  · rw [t2]; exact h1
  · rw [t2]; exact h2

/-- Two kilometres over a hill of 50 m, antennas of 10 m, in any rounding arithmetic. -/
example (R : Rounding α) : HzSized R ({ np := 2, xi := PyNum.ofInt 1000, z := [PyNum.ofInt 0, PyNum.ofInt 50, PyNum.ofInt 0] } : Pfl α) 2
    (R.val (1.57e-7 : α)) (R.val (PyNum.ofInt 0 : α) + R.val (PyNum.ofInt 10 : α)) (R.val (PyNum.ofInt 0 : α) + R.val (PyNum.ofInt 10 : α)) := by
  have a0 := val_int R 0 (by norm_num)
  have a10 := val_int R 10 (by norm_num)
  have a50 := val_int R 50 (by norm_num)
  have a1000 := val_int R 1000 (by norm_num)
  have g := Near.lit R (m := 157) (s := true) (k := 9) (M := 1.6e-7) (g := 1e-15) (by norm_num [abs_of_nonneg]) (by norm_num) (by norm_num)
  have ge := abs_le.1 g.err
  have hj : ∀ j : ℕ, 1 ≤ j → j < 2 → j = 1 := by omega
  constructor
  · norm_num
  · norm_num
  · simp
  · exact a1000.1
  · rw [a1000.2]; norm_num
  · rw [a1000.2]; norm_num
  · rw [abs_le]; constructor <;> norm_num at * <;> linarith
  · rw [a0.2, a10.2]; norm_num
  · rw [a0.2, a10.2]; norm_num
  · intro a ha
    simp only [List.mem_cons, List.not_mem_nil, or_false] at ha
    rcases ha with rfl | rfl | rfl
    · rw [a0.2]; exact ⟨a0.1, by norm_num⟩
    · rw [a50.2]; exact ⟨a50.1, by norm_num⟩
    · rw [a0.2]; exact ⟨a0.1, by norm_num⟩
  · intro j j1 j2
    rw [hj j j1 j2, valPfl_h R (by simp)]
    simp only [List.getElem_cons_succ, List.getElem_cons_zero]
    rw [a50.2, a0.2, a10.2, a1000.2]; norm_num
  · intro j j1 j2
    rw [hj j j1 j2, valPfl_h R (by simp)]
    simp only [List.getElem_cons_succ, List.getElem_cons_zero]
    rw [a50.2, a0.2, a10.2, a1000.2]; norm_num
  · rw [a0.2, a10.2, a1000.2]; norm_num

end Itm.Props

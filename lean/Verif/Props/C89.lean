import Verif.Lemmas.DlthxRound2

/-! C89: the fitted line and the terrain irregularity survive rounding. -/

namespace Itm.Spec
open Itm Itm.Props
variable {α : Type} [PyNum α]

/-- A profile of `n` intervals whose heights are at most 10 km, and a window `x1 … x2` inside it, at most 4000 km long; all numbers finite. -/
structure SizedWindow (R : Rounding α) (p : Pfl α) (n : ℕ) (x1 x2 : α) : Prop where
  np : p.np = n
  few : n ≤ 1000
  len : n < p.z.length
  heights : ∀ a ∈ p.z, R.fin a ∧ |R.val a| ≤ 1e4
  fin_xi : R.fin p.xi
  pos_xi : 0 < R.val p.xi
  fin1 : R.fin x1
  fin2 : R.fin x2
  nonneg : 0 ≤ R.val x1
  le : R.val x1 ≤ R.val x2
  inside : R.val x2 ≤ n * R.val p.xi
  short : R.val x2 ≤ 4e6

end Itm.Spec

namespace Itm.Props
open Itm Spec
variable {α : Type} [PyNum α]

/-- **C89** (line) In every rounding arithmetic `zlsq1` answers for a window that is not shorter than 1e-10 intervals, and the answer is within a
micrometre of the ends of the least-squares line of the very heights given, over the samples `⌊u⌋ … ⌈v⌉`, where `u` and `v` differ from the ends of
the window by at most 1e-11 intervals. -/
theorem C89_fit (R : Rounding α) {p : Pfl α} {x1 x2 : α} {n : ℕ} (H : SizedWindow R p n x1 x2)
    (h : R.val x1 / R.val p.xi + 1e-10 ≤ R.val x2 / R.val p.xi) :
    ∃ (u v c s : ℝ) (z0 zn : α), 0 ≤ u ∧ v ≤ n ∧ u < v ∧ |u - R.val x1 / R.val p.xi| ≤ 1e-11 ∧ |v - R.val x2 / R.val p.xi| ≤ 1e-11 ∧
      zlsq1 p x1 x2 = .ok (z0, zn) ∧ BestLine (fun j => (p.z.map R.val).getD j 0) ⌊u⌋₊ (⌈v⌉₊ - ⌊u⌋₊) c s ∧
      |R.val z0 - c| ≤ 1e-6 ∧ |R.val zn - (c + s * n)| ≤ 1e-6 := by
  obtain ⟨u, v, z0, zn, b1, b2, b3, b4, b5, e, n0, nn⟩ := zlsq1_round R H.np H.few H.len H.heights (by norm_num) (by norm_num) H.fin_xi H.pos_xi H.fin1
    H.fin2 H.nonneg h H.inside
  have hnR : (n : ℝ) ≤ 1000 := by exact_mod_cast H.few
  have hc : 6e-14 * ((n : ℝ) * 1e4) ≤ 1e-6 := by norm_num; linarith
  have lt : ⌊u⌋₊ < ⌈v⌉₊ := Nat.floor_lt_ceil_of_lt_of_pos b3 (by linarith)
  refine ⟨u, v, _, _, z0, zn, b1, b2, b3, b4, b5, e, fit_best (by omega), (n0.mono hc).err, ?_⟩
  have := (nn.mono hc).err
  rwa [show fitAt (fun j => (p.z.map R.val).getD j 0) ⌊u⌋₊ (⌈v⌉₊ - ⌊u⌋₊) 0 + fitB (fun j => (p.z.map R.val).getD j 0) ⌊u⌋₊ (⌈v⌉₊ - ⌊u⌋₊) * n =
    fitAt (valPfl R p).h ⌊u⌋₊ (⌈v⌉₊ - ⌊u⌋₊) n by unfold fitAt; change _ = fitA (fun j => (p.z.map R.val).getD j 0) _ _ + fitB (fun j => (p.z.map R.val).getD j 0) _ _ * _; ring]

/-- **C89** (line, compared with exact arithmetic) If the ends of the window do not lie within 1e-11 intervals of a sample at which the range of
samples changes, the answer is within a micrometre of the one exact arithmetic gives for the same input. -/
theorem C89_fit_exact (R : Rounding α) {p : Pfl α} {x1 x2 : α} {n : ℕ} (H : SizedWindow R p n x1 x2)
    (h : R.val x1 / R.val p.xi + 1e-10 ≤ R.val x2 / R.val p.xi) (ha : ⌊R.val x1 / R.val p.xi + 1e-11⌋₊ = ⌊R.val x1 / R.val p.xi - 1e-11⌋₊)
    (hb : ⌈min (R.val x2 / R.val p.xi + 1e-11) n⌉₊ = ⌈R.val x2 / R.val p.xi - 1e-11⌉₊) :
    ∃ (z0 zn : α) (w0 wn : ℝ), zlsq1 p x1 x2 = .ok (z0, zn) ∧ zlsq1 (valPfl R p) (R.val x1) (R.val x2) = .ok (w0, wn) ∧
      |R.val z0 - w0| ≤ 1e-6 ∧ |R.val zn - wn| ≤ 1e-6 := by
  obtain ⟨u, v, z0, zn, b1, b2, b3, b4, b5, e, n0, nn⟩ := zlsq1_round R H.np H.few H.len H.heights (by norm_num) (by norm_num) H.fin_xi H.pos_xi H.fin1
    H.fin2 H.nonneg h H.inside
  have hnR : (n : ℝ) ≤ 1000 := by exact_mod_cast H.few
  have hc : 6e-14 * ((n : ℝ) * 1e4) ≤ 1e-6 := by norm_num; linarith
  have X10 : 0 ≤ R.val x1 / R.val p.xi := div_nonneg H.nonneg H.pos_xi.le
  have X2n : R.val x2 / R.val p.xi ≤ n := (div_le_iff₀ H.pos_xi).2 H.inside
  have xpos : 0 < (valPfl R p).xi := H.pos_xi
  have xnp : (valPfl R p).np = n := H.np
  have xlen : (valPfl R p).np < (valPfl R p).z.length := by
    rw [xnp]
    change (n : ℤ) < ((p.z.map R.val).length : ℕ)
    rw [List.length_map]; exact_mod_cast H.len
  obtain ⟨X1, eX1⟩ : ∃ X, X = R.val x1 / R.val p.xi := ⟨_, rfl⟩
  obtain ⟨X2, eX2⟩ : ∃ X, X = R.val x2 / R.val p.xi := ⟨_, rfl⟩
  have wA : winA (valPfl R p) (R.val x1) = ⌊X1⌋ := by
    unfold winA
    change ⌊max (R.val x1 / R.val p.xi) 0⌋ = _
    rw [max_eq_left X10, eX1]
  have wB : winB (valPfl R p) (R.val x2) = ⌈X2⌉ := by
    unfold winB
    rw [xnp]
    change min (n : ℤ) ⌈R.val x2 / R.val p.xi⌉ = _
    rw [min_eq_right (Int.ceil_le.2 (by exact_mod_cast X2n)), eX2]
  rw [← eX1] at h ha X10 b4
  rw [← eX2] at h hb X2n b5
  rw [abs_le] at b4 b5
  have eu : ⌊u⌋₊ = ⌊X1⌋₊ := by
    have p1 : (0 : ℝ) ≤ 1e-11 := by norm_num
    have a1 : ⌊u⌋₊ ≤ ⌊X1 + 1e-11⌋₊ := Nat.floor_mono (by linarith [b4.2])
    have a2 : ⌊X1 - 1e-11⌋₊ ≤ ⌊u⌋₊ := Nat.floor_mono (by linarith [b4.1])
    have a3 : ⌊X1⌋₊ ≤ ⌊X1 + 1e-11⌋₊ := Nat.floor_mono (by linarith)
    have a4 : ⌊X1 - 1e-11⌋₊ ≤ ⌊X1⌋₊ := Nat.floor_mono (by linarith)
    omega
  have ev : ⌈v⌉₊ = ⌈X2⌉₊ := by
    have p1 : (0 : ℝ) ≤ 1e-11 := by norm_num
    have a1 : ⌈v⌉₊ ≤ ⌈min (X2 + 1e-11) n⌉₊ := Nat.ceil_mono (le_min (by linarith [b5.2]) b2)
    have a2 : ⌈X2 - 1e-11⌉₊ ≤ ⌈v⌉₊ := Nat.ceil_mono (by linarith [b5.1])
    have a3 : ⌈X2⌉₊ ≤ ⌈min (X2 + 1e-11) n⌉₊ := Nat.ceil_mono (le_min (by linarith) X2n)
    have a4 : ⌈X2 - 1e-11⌉₊ ≤ ⌈X2⌉₊ := Nat.ceil_mono (by linarith)
    omega
  have X2p : 0 < X2 := by norm_num at h; linarith
  have lt : ⌊X1⌋₊ < ⌈X2⌉₊ := Nat.floor_lt_ceil_of_lt_of_pos (by norm_num at h; linarith) X2p
  have fl : ⌊X1⌋ = ((⌊X1⌋₊ : ℕ) : ℤ) := (Int.natCast_floor_eq_floor X10).symm
  have cl : ⌈X2⌉ = ((⌈X2⌉₊ : ℕ) : ℤ) := (Int.natCast_ceil_eq_ceil X2p.le).symm
  have er := zlsq1_ok (p := valPfl R p) (x1 := R.val x1) (x2 := R.val x2) xpos xlen (by rw [wA, wB, fl, cl]; exact_mod_cast lt)
  rw [wA, wB, fl, cl, xnp, Int.toNat_natCast, show (((⌈X2⌉₊ : ℕ) : ℤ) - ((⌊X1⌋₊ : ℕ) : ℤ)).toNat = ⌈X2⌉₊ - ⌊X1⌋₊ by omega] at er
  rw [eu, ev] at n0 nn
  exact ⟨z0, zn, _, _, e, er, (n0.mono hc).err, by have := (nn.mono hc).err; exact_mod_cast this⟩

/-- **C89** (irregularity) In every rounding arithmetic `dlthx` answers. Either the window is shorter than two intervals (up to 1e-11) and the
answer is zero, or it is at least two intervals long (up to 1e-11) and the answer is not negative and within 0.15 mm of the irregularity of the very heights given,
in a window `u … v` whose ends differ from the given ones by at most 2e-11 intervals. -/
theorem C89_irregularity (R : Rounding α) {p : Pfl α} {x1 x2 : α} {n : ℕ} (H : SizedWindow R p n x1 x2) :
    (dlthx p x1 x2 = .ok 0.0 ∧ R.val x2 / R.val p.xi - R.val x1 / R.val p.xi < 2 + 1e-11) ∨
    ∃ (u v ω : ℝ) (w : α), 0 ≤ u ∧ v ≤ n ∧ 2 ≤ v - u ∧ |u - R.val x1 / R.val p.xi| ≤ 1e-11 ∧ |v - R.val x2 / R.val p.xi| ≤ 2e-11 ∧
      dlthx p x1 x2 = .ok w ∧ IsIrregularity (fun j => (p.z.map R.val).getD j 0) u v (R.val x2 - R.val x1) ω ∧ |R.val w - ω| ≤ 1.5e-4 ∧
      0 ≤ R.val w ∧ 2 - 1e-11 < R.val x2 / R.val p.xi - R.val x1 / R.val p.xi := by
  rcases dlthx_round_at R H.np H.few H.len H.heights H.fin_xi H.pos_xi H.fin1 H.fin2 H.nonneg H.le H.inside H.short (T := fun _ _ => True)
    (fun u0 v0 t' h2 a b c d _ _ => by
      obtain ⟨u, v, h⟩ := window_choice h2 a b c d
      exact ⟨u, v, trivial, h⟩) with h | ⟨u, v, ω, w, -, a1, a2, a3, a4, a5, a6, a7, a8, a10, -, a9⟩
  · exact Or.inl h
  · exact Or.inr ⟨u, v, ω, w, a1, a2, a3, a4, a5, a6, a7, a8.err, a10, a9⟩

/-- **C89** (irregularity, compared with exact arithmetic) If the length of the window is at least two intervals and not within 1e-11 of 42, 52, …,
242 intervals, where the number of discarded values changes, nor of two, the answer is within 0.15 mm of the one exact arithmetic gives. -/
theorem C89_irregularity_exact (R : Rounding α) {p : Pfl α} {x1 x2 : α} {n : ℕ} (H : SizedWindow R p n x1 x2)
    (h2 : 2 + 1e-11 ≤ R.val x2 / R.val p.xi - R.val x1 / R.val p.xi)
    (hk : ∀ k : ℕ, 5 ≤ k → k ≤ 25 → 1e-11 < |R.val x2 / R.val p.xi - R.val x1 / R.val p.xi - (10 * k - 8)|) :
    ∃ (w : α) (v : ℝ), dlthx p x1 x2 = .ok w ∧ dlthx (valPfl R p) (R.val x1) (R.val x2) = .ok v ∧ |R.val w - v| ≤ 1.5e-4 := by
  have X10 : 0 ≤ R.val x1 / R.val p.xi := div_nonneg H.nonneg H.pos_xi.le
  have X2n : R.val x2 / R.val p.xi ≤ n := (div_le_iff₀ H.pos_xi).2 H.inside
  have h2' : 2 ≤ R.val x2 / R.val p.xi - R.val x1 / R.val p.xi := by norm_num at h2; linarith
  have xnp : (valPfl R p).np = n := H.np
  have xlen : (valPfl R p).np < (valPfl R p).z.length := by
    rw [xnp]
    change (n : ℤ) < ((p.z.map R.val).length : ℕ)
    rw [List.length_map]; exact_mod_cast H.len
  obtain ⟨v, ev, iv⟩ := dlthx_ok (p := valPfl R p) (x1 := R.val x1) (x2 := R.val x2) H.pos_xi xlen H.nonneg (by rw [xnp]; exact_mod_cast H.inside) h2'
  rcases dlthx_round_at R H.np H.few H.len H.heights H.fin_xi H.pos_xi H.fin1 H.fin2 H.nonneg H.le H.inside H.short
    (T := fun u v => u = R.val x1 / R.val p.xi ∧ v = R.val x2 / R.val p.xi)
    (fun u0 v0 t' _ a b c d d1 d2 => by
      rw [abs_le] at d d1 d2
      norm_num at c d d1 d2
      refine ⟨_, _, ⟨rfl, rfl⟩, X10, X2n, h2', ?_, ?_, ?_⟩
      · rw [abs_le]; norm_num; constructor <;> linarith [d1.1, d1.2]
      · rw [abs_le]; norm_num; constructor <;> linarith [d1.1, d1.2, d2.1, d2.2]
      · refine trimmed_steady (by linarith [d.1]) (by linarith) ?_ hk
        rw [abs_le]; norm_num; constructor <;> linarith [d.1, d.2, d1.1, d1.2, d2.1, d2.2]) with h | ⟨u, v', ω, w, ⟨rfl, rfl⟩, a1, a2, a3, a4, a5, a6, a7, a8, -, -, a9⟩
  · linarith [h.2]
  · refine ⟨w, v, a6, ev, ?_⟩
    have : ω = v := irregularity_unique a7 iv
    rw [← this]; exact a8.err

/-! A hill of 50 m on a profile of three intervals of a kilometre, in every rounding arithmetic: the hypotheses of all four theorems hold. -/

theorem hill_sized (R : Rounding α) : SizedWindow R ({ np := 3, xi := PyNum.ofInt 1000, z := [PyNum.ofInt 0, PyNum.ofInt 50, PyNum.ofInt 20, PyNum.ofInt 0] } : Pfl α) 3
    (PyNum.ofInt 0) (PyNum.ofInt 3000) := by
  have a0 := val_int R 0 (by norm_num)
  have a20 := val_int R 20 (by norm_num)
  have a50 := val_int R 50 (by norm_num)
  have a1000 := val_int R 1000 (by norm_num)
  have a3000 := val_int R 3000 (by norm_num)
  constructor
  · rfl
  · norm_num
  · simp
  · intro a ha
    simp only [List.mem_cons, List.not_mem_nil, or_false] at ha
    rcases ha with rfl | rfl | rfl | rfl
    · rw [a0.2]; exact ⟨a0.1, by norm_num⟩
    · rw [a50.2]; exact ⟨a50.1, by norm_num⟩
    · rw [a20.2]; exact ⟨a20.1, by norm_num⟩
    · rw [a0.2]; exact ⟨a0.1, by norm_num⟩
  · exact a1000.1
  · rw [a1000.2]; norm_num
  · exact a0.1
  · exact a3000.1
  · rw [a0.2]; norm_num
  · rw [a0.2, a3000.2]; norm_num
  · rw [a1000.2, a3000.2]; norm_num
  · rw [a3000.2]; norm_num

theorem hill_ends (R : Rounding α) : R.val (PyNum.ofInt 0 : α) / R.val (PyNum.ofInt 1000 : α) = 0 ∧
    R.val (PyNum.ofInt 3000 : α) / R.val (PyNum.ofInt 1000 : α) = 3 := by
  rw [(val_int R 0 (by norm_num)).2, (val_int R 1000 (by norm_num)).2, (val_int R 3000 (by norm_num)).2]; norm_num

/-- the line: the whole profile -/
example (R : Rounding α) := C89_fit_exact R (hill_sized R)
  (by dsimp only; rw [(hill_ends R).1, (hill_ends R).2]; norm_num)
  (by dsimp only; rw [(hill_ends R).1, Nat.floor_eq_zero.2 (by norm_num), Nat.floor_eq_zero.2 (by norm_num)])
  (by dsimp only; rw [(hill_ends R).2, min_eq_right (by norm_num), Nat.ceil_natCast, eq_comm, Nat.ceil_eq_iff (by norm_num)]; norm_num)

/-- the irregularity -/
example (R : Rounding α) := C89_irregularity_exact R (hill_sized R)
  (by dsimp only; rw [(hill_ends R).1, (hill_ends R).2]; norm_num)
  (by
    dsimp only
    intro k h _
    have : (5 : ℝ) ≤ k := by exact_mod_cast h
    rw [(hill_ends R).1, (hill_ends R).2, abs_of_neg (by linarith)]; norm_num; linarith)

end Itm.Props

import Verif.Lemmas.LosReal

/-! The line-of-sight coefficients over the reals: success conditions and what every success satisfies. -/

namespace Itm

/-- The two shorter fit distances. -/
noncomputable def losDR (i : LrIn ℝ) (h : Horizon ℝ) (l : DiffLine ℝ) : ℝ × ℝ :=
  if 0 ≤ l.aed then
    (min (1.908 * i.wn * i.he.x0 * i.he.x1) (0.5 * h.dla),
     min (1.908 * i.wn * i.he.x0 * i.he.x1) (0.5 * h.dla) + 0.25 * (h.dla - min (1.908 * i.wn * i.he.x0 * i.he.x1) (0.5 * h.dla)))
  else (1.908 * i.wn * i.he.x0 * i.he.x1, max (-l.aed / l.emd) (0.25 * h.dla))

theorem losDists_ok {i : LrIn ℝ} {h : Horizon ℝ} {l : DiffLine ℝ} (he : 0 ≤ l.aed ∨ l.emd ≠ 0) :
    losDists { blank 0 i with line := some l } h l = .ok (losDR i h l) := by
  unfold losDists losDR
  simp only [lit_eq, pyMin_real, pyMax_real, zero_lit]
  by_cases h0 : 0 ≤ l.aed
  · rw [if_pos h0, if_pos h0]; rfl
  · rw [if_neg h0, if_neg h0, pyDiv_ok (he.resolve_left h0)]; rfl

theorem losAk2_nonneg {d0 d1 d2 a0 a1 a2 q k : ℝ} (h : losAk2 d0 d1 d2 a0 a1 a2 q = .ok k) : 0 ≤ k := by
  unfold losAk2 at h
  obtain ⟨x, _, h⟩ := bind_eq_ok.1 h
  obtain ⟨l1, _, h⟩ := bind_eq_ok.1 h
  obtain ⟨f, _, h⟩ := bind_eq_ok.1 h
  rw [pure_ok, ok_inj] at h
  rw [← h, pyMax_real, zero_lit]; exact le_max_left _ _

theorem losAk1_facts {d0 d2 a0 a2 q ak2 emd : ℝ} {k : ℝ × ℝ} (h0 : 0 ≤ ak2) (hq : ak2 ≠ 0 → d0 < d2 → 0 < q)
    (h : losAk1 d0 d2 a0 a2 q ak2 emd = .ok k) :
    (0 ≤ k.1 ∨ k.1 = emd) ∧ (0 ≤ k.2 ∨ q < 0) := by
  unfold losAk1 at h
  obtain ⟨ak1, h1, h⟩ := bind_eq_ok.1 h
  simp only [zero_lit] at h
  by_cases hn : ak1 < 0
  · rw [if_pos hn] at h
    obtain ⟨x, hx, h⟩ := bind_eq_ok.1 h
    rw [pyMax_real] at hx
    have hx := pyDiv_eq_ok.1 hx
    have hs : 0 ≤ x ∨ q < 0 := by
      rcases le_or_gt 0 q with hq0 | hq0
      · exact .inl (by rw [hx.2]; exact div_nonneg (le_max_right _ _) hq0)
      · exact .inr hq0
    by_cases hz : pyEq x 0
    · rw [if_pos hz, pure_ok, ok_inj] at h; rw [← h]; exact ⟨.inr rfl, hs⟩
    · rw [if_neg hz, pure_ok, ok_inj] at h; rw [← h]; exact ⟨.inl le_rfl, hs⟩
  · rw [if_neg hn, pure_ok, ok_inj] at h; rw [← h]; exact ⟨.inl (not_lt.1 hn), .inl h0⟩

theorem losPlain_facts {d1 d2 a1 a2 emd : ℝ} {k : ℝ × ℝ} (hd : d1 < d2) (h : losPlain d1 d2 a1 a2 emd = .ok k) :
    (0 ≤ k.1 ∨ k.1 = emd) ∧ k.2 = 0 := by
  unfold losPlain at h
  obtain ⟨ak1, h1, h⟩ := bind_eq_ok.1 h
  simp only [zero_lit, pyMax_real] at h h1
  have h1 := pyDiv_eq_ok.1 h1
  have : 0 ≤ ak1 := by rw [h1.2]; exact div_nonneg (le_max_right _ _) (by linarith)
  by_cases hz : pyEq ak1 0
  · rw [if_pos hz, pure_ok, ok_inj] at h; rw [← h]; exact ⟨.inr rfl, rfl⟩
  · rw [if_neg hz, pure_ok, ok_inj] at h; rw [← h]; exact ⟨.inl this, rfl⟩

theorem losAk2_ok {d0 d1 d2 a0 a1 a2 : ℝ} (h0 : 0 < d0) (h1 : d0 < d1) (h2 : 0 < d2) (h02 : d2 ≠ d0) (h12 : d2 ≠ d1) :
    ∃ k, losAk2 d0 d1 d2 a0 a1 a2 (Real.log (d2 / d0)) = .ok k := by
  unfold losAk2
  have : 0 < d1 / d0 := div_pos (h0.trans h1) h0
  rw [pyDiv_ok h0.ne', ok_bind, npLog_ok this, ok_bind, pyDiv_ok (fit_div_ne h0 h1 h2 h02 h12), ok_bind]
  exact ⟨_, rfl⟩

theorem losAk1_ok {d0 d2 a0 a2 q ak2 emd : ℝ} (h : d2 ≠ d0) (hq : q ≠ 0) : ∃ k, losAk1 d0 d2 a0 a2 q ak2 emd = .ok k := by
  unfold losAk1
  rw [pyDiv_ok (sub_ne_zero.2 h), ok_bind]
  split_ifs
  · rw [pyDiv_ok hq, ok_bind]; split_ifs <;> exact ⟨_, rfl⟩
  · exact ⟨_, rfl⟩

theorem losPlain_ok {d1 d2 a1 a2 emd : ℝ} (h : d2 ≠ d1) : ∃ k, losPlain d1 d2 a1 a2 emd = .ok k := by
  unfold losPlain
  rw [pyDiv_ok (sub_ne_zero.2 h), ok_bind]
  split_ifs <;> exact ⟨_, rfl⟩

/-- A ground impedance that cannot equal a grazing sine. -/
def ZSafe (z : Cx ℝ) : Prop := z.im ≠ 0 ∨ 1 ≤ z.re

theorem alos_ok' {i : LrIn ℝ} {l : DiffLine ℝ} {d : ℝ} (a : Adm i) (hz : ZSafe i.zgnd) (hd : 0 < d) :
    ∃ v, alos d { blank 0 i with line := some l } = .ok v := by
  have hne : ¬ (i.zgnd.re = spsR i.he d ∧ i.zgnd.im = 0) := by
    intro ⟨e1, e2⟩
    rcases hz with h | h
    · exact h e2
    · linarith [(spsR_range a.he0 a.he1 hd).2]
  obtain ⟨_, _, h⟩ := alos_ok (p := { blank 0 i with line := some l }) (l := l) rfl a.he0 a.he1 a.wn a.dh a.zre hd hne
  exact ⟨_, h⟩

theorem losD_pos {i : LrIn ℝ} {l : DiffLine ℝ} (a : Adm i) : 0 < (losDR i (horR i) l).1 ∧ 0 < (losDR i (horR i) l).2 := by
  have hla := horR_dla_pos a
  have h1 := a.wn; have h2 := a.he0; have h3 := a.he1
  have hd0 : 0 < 1.908 * i.wn * i.he.x0 * i.he.x1 := by positivity
  unfold losDR
  split_ifs
  · have hm : 0 < min (1.908 * i.wn * i.he.x0 * i.he.x1) (0.5 * (horR i).dla) := lt_min hd0 (by positivity)
    have hm2 : min (1.908 * i.wn * i.he.x0 * i.he.x1) (0.5 * (horR i).dla) ≤ 0.5 * (horR i).dla := min_le_right _ _
    generalize min (1.908 * i.wn * i.he.x0 * i.he.x1) (0.5 * (horR i).dla) = m at *
    refine ⟨hm, ?_⟩
    norm_num at *; linarith
  · exact ⟨hd0, lt_of_lt_of_le (by positivity) (le_max_right _ _)⟩

/-- The line-of-sight coefficients exist when the three fit distances are distinct. -/
theorem losC_ok {i : LrIn ℝ} {l : DiffLine ℝ} (a : Adm i) (hz : ZSafe i.zgnd) (he : 0 ≤ l.aed ∨ l.emd ≠ 0)
    (h1 : (horR i).dlsa ≠ (losDR i (horR i) l).2)
    (h0 : (losDR i (horR i) l).1 < (losDR i (horR i) l).2 → (horR i).dlsa ≠ (losDR i (horR i) l).1) :
    ∃ k, losC i (horR i) l = .ok k := by
  obtain ⟨p0, p1⟩ := losD_pos (l := l) a
  have hd2 := horR_dlsa_pos a
  unfold losC losCoef
  rw [losDists_ok he, ok_bind]
  generalize losDR i (horR i) l = D at *
  obtain ⟨d0, d1⟩ := D
  simp only at *
  obtain ⟨a1, ha1⟩ := alos_ok' (l := l) a hz p1
  obtain ⟨a0, ha0⟩ := alos_ok' (l := l) a hz p0
  rw [ha1, ok_bind]
  generalize hA2 : l.aed + (horR i).dlsa * l.emd = a2
  by_cases hlt : d0 < d1
  · simp only [hlt, if_true]
    have hq0 : 0 < (horR i).dlsa / d0 := div_pos hd2 p0
    have hq : Real.log ((horR i).dlsa / d0) ≠ 0 := by
      rw [Real.log_div hd2.ne' p0.ne', sub_ne_zero]
      intro e
      exact h0 hlt (Real.log_injOn_pos (Set.mem_Ioi.2 hd2) (Set.mem_Ioi.2 p0) e)
    rw [ha0, ok_bind, pyDiv_ok p0.ne', ok_bind, npLog_ok hq0, ok_bind]
    obtain ⟨k2, hk2⟩ := losAk2_ok (a0 := a0) (a1 := a1) (a2 := a2) p0 hlt hd2 (h0 hlt) h1
    obtain ⟨k, hk⟩ := losAk1_ok (a0 := a0) (a2 := a2) (ak2 := k2) (emd := l.emd) (h0 hlt) hq
    obtain ⟨k', hk'⟩ := losPlain_ok (a1 := a1) (a2 := a2) (emd := l.emd) h1
    rw [hk2, ok_bind]
    split_ifs
    · rw [hk, ok_bind, npLog_ok hd2]; exact ⟨_, rfl⟩
    · rw [hk', ok_bind, npLog_ok hd2]; exact ⟨_, rfl⟩
  · simp only [hlt, if_false]
    obtain ⟨k', hk'⟩ := losPlain_ok (a1 := a1) (a2 := a2) (emd := l.emd) h1
    rw [hk', ok_bind, npLog_ok hd2]; exact ⟨_, rfl⟩

/-- What every computed coefficient set satisfies: the fit passes through the diffraction line at `dlsa`. -/
theorem losC_meets {i : LrIn ℝ} {h : Horizon ℝ} {l : DiffLine ℝ} {k : LosC ℝ} (hk : losC i h l = .ok k) :
    0 < h.dlsa ∧ k.ael + k.ak1 * h.dlsa + k.ak2 * Real.log h.dlsa = l.aed + l.emd * h.dlsa := by
  have key : ∀ (x : ℝ × ℝ), (do let lg ← npLog h.dlsa; (pure (⟨l.aed + h.dlsa * l.emd - x.1 * h.dlsa - x.2 * lg, x.1, x.2⟩ : LosC ℝ) : Py (LosC ℝ))) = .ok k →
      0 < h.dlsa ∧ k.ael + k.ak1 * h.dlsa + k.ak2 * Real.log h.dlsa = l.aed + l.emd * h.dlsa := by
    intro x hx
    obtain ⟨lg, hl, hx⟩ := bind_eq_ok.1 hx
    obtain ⟨h1, h2⟩ := npLog_eq_ok.1 hl
    rw [pure_ok, ok_inj] at hx
    refine ⟨h1, ?_⟩
    rw [← hx, h2]; ring
  unfold losC losCoef at hk
  dsimp only at hk
  obtain ⟨D, hD, hk⟩ := bind_eq_ok.1 hk
  obtain ⟨a1, ha1, hk⟩ := bind_eq_ok.1 hk
  split_ifs at hk
  · obtain ⟨a0, ha0, hk⟩ := bind_eq_ok.1 hk
    obtain ⟨x, hx, hk⟩ := bind_eq_ok.1 hk
    obtain ⟨q, hq, hk⟩ := bind_eq_ok.1 hk
    obtain ⟨k2, hk2, hk⟩ := bind_eq_ok.1 hk
    split_ifs at hk
    · obtain ⟨y, hy, hk⟩ := bind_eq_ok.1 hk
      exact key y hk
    · obtain ⟨y, hy, hk⟩ := bind_eq_ok.1 hk
      exact key y hk
  · obtain ⟨y, hy, hk⟩ := bind_eq_ok.1 hk
    exact key y hk

theorem losDists_inv {i : LrIn ℝ} {h : Horizon ℝ} {l : DiffLine ℝ} {D : ℝ × ℝ}
    (hD : losDists { blank 0 i with line := some l } h l = .ok D) : D = losDR i h l := by
  by_cases he : 0 ≤ l.aed ∨ l.emd ≠ 0
  · rw [losDists_ok he, ok_inj] at hD; exact hD.symm
  · push Not at he
    exfalso
    unfold losDists at hD
    simp only [zero_lit] at hD
    rw [if_neg (not_le.2 he.1)] at hD
    obtain ⟨q, hq, _⟩ := bind_eq_ok.1 hD
    exact (pyDiv_eq_ok.1 hq).1 he.2

/-- Signs of every computed coefficient set whose middle fit distance is short of `dlsa`. -/
theorem losC_signs {i : LrIn ℝ} {h : Horizon ℝ} {l : DiffLine ℝ} {k : LosC ℝ} (hd0 : 0 < (losDR i h l).1)
    (hd : (losDR i h l).2 < h.dlsa) (hk : losC i h l = .ok k) : (0 ≤ k.ak1 ∨ k.ak1 = l.emd) ∧ 0 ≤ k.ak2 := by
  have key : ∀ (x : ℝ × ℝ), (do let lg ← npLog h.dlsa; (pure (⟨l.aed + h.dlsa * l.emd - x.1 * h.dlsa - x.2 * lg, x.1, x.2⟩ : LosC ℝ) : Py (LosC ℝ))) = .ok k →
      k.ak1 = x.1 ∧ k.ak2 = x.2 := by
    intro x hx
    obtain ⟨lg, hl, hx⟩ := bind_eq_ok.1 hx
    rw [pure_ok, ok_inj] at hx
    rw [← hx]; exact ⟨rfl, rfl⟩
  unfold losC losCoef at hk
  dsimp only at hk
  obtain ⟨D, hD, hk⟩ := bind_eq_ok.1 hk
  rw [← losDists_inv hD] at hd hd0
  obtain ⟨a1, ha1, hk⟩ := bind_eq_ok.1 hk
  split_ifs at hk with hlt hw
  · obtain ⟨a0, ha0, hk⟩ := bind_eq_ok.1 hk
    obtain ⟨x, hx, hk⟩ := bind_eq_ok.1 hk
    obtain ⟨q, hq, hk⟩ := bind_eq_ok.1 hk
    obtain ⟨k2, hk2, hk⟩ := bind_eq_ok.1 hk
    have hq0 : 0 < q := by
      rw [(npLog_eq_ok.1 hq).2, (pyDiv_eq_ok.1 hx).2]
      exact Real.log_pos ((one_lt_div hd0).2 (hlt.trans hd))
    split_ifs at hk
    · obtain ⟨y, hy, hk⟩ := bind_eq_ok.1 hk
      obtain ⟨e1, e2⟩ := key y hk
      have := losAk1_facts (losAk2_nonneg hk2) (fun _ _ => hq0) hy
      rw [e1, e2]; exact ⟨this.1, this.2.resolve_right (not_lt.2 hq0.le)⟩
    · obtain ⟨y, hy, hk⟩ := bind_eq_ok.1 hk
      obtain ⟨e1, e2⟩ := key y hk
      have := losPlain_facts hd hy
      rw [e1, e2]; exact ⟨this.1, this.2.ge⟩
  · obtain ⟨y, hy, hk⟩ := bind_eq_ok.1 hk
    obtain ⟨e1, e2⟩ := key y hk
    have := losPlain_facts hd hy
    rw [e1, e2]; exact ⟨this.1, this.2.ge⟩

end Itm

import Verif.Lemmas.RefineLos

/-! Forward scatter in arithmetics of growing precision. -/

namespace Itm
open Itm.Spec Filter Asymptotics Topology

variable {ι : Type} {l : Filter ι} {α : ι → Type} [∀ i, PyNum (α i)] {ε : ι → ℝ} {F : Refining l α ε}

theorem refine_ahd {a : ∀ i, α i} {x : ℝ} (h : F.Approx a x) (h1 : x ≠ 10000) (h2 : x ≠ 70000) : Follows l F.Approx (fun i => ahd (a i)) (ahd x) := by
  have c1 := h.le_iff (Refining.Approx.lit 10 false 3) (y := 10e3) (by rw [show (10e3 : ℝ) = 10000 by norm_num]; exact h1)
  have c2 := h.le_iff (Refining.Approx.lit 70 false 3) (y := 70e3) (by rw [show (70e3 : ℝ) = 70000 by norm_num]; exact h2)
  have key : ∀ {A B C : ∀ i, α i} {u v w : ℝ}, F.Approx A u → F.Approx B v → F.Approx C w →
      Follows l F.Approx (fun i => (do let g ← npLog (a i); pure (A i + B i * a i + C i * g) : Py (α i))) (do let g ← npLog x; pure (u + v * x + w * g)) := by
    intro A B C u v w hA hB hC
    refine Follows.bind (Follows.log h) (fun b g _ hb => Follows.pure ?_)
    appr
  unfold ahd
  by_cases k1 : x ≤ 10e3
  · rw [if_pos k1]
    refine (key (Refining.Approx.lit 1334 true 1) (Refining.Approx.lit 332 true 6) (Refining.Approx.lit 4343 true 3).neg).congr ?_
    filter_upwards [c1] with i hi
    rw [if_pos (hi.2 k1)]
  · rw [if_neg k1]
    by_cases k2 : x ≤ 70e3
    · rw [if_pos k2]
      refine (key (Refining.Approx.lit 1046 true 1) (Refining.Approx.lit 212 true 6) (Refining.Approx.lit 1086 true 3).neg).congr ?_
      filter_upwards [c1, c2] with i hi hj
      rw [if_neg (fun q => k1 (hi.1 q)), if_pos (hj.2 k2)]
    · rw [if_neg k2]
      refine (key (Refining.Approx.lit 718 true 1) (Refining.Approx.lit 157 true 6) (Refining.Approx.lit 2171 true 3)).congr ?_
      filter_upwards [c1, c2] with i hi hj
      rw [if_neg (fun q => k1 (hi.1 q)), if_neg (fun q => k2 (hj.1 q))]

theorem refine_row {k : ℤ} (h0 : 0 ≤ k) (h4 : k ≤ 4) {X : ∀ i, α i} {x : ℝ} (h : F.Approx X x) :
    Follows l F.Approx (fun i => h0fRow k (X i)) (h0fRow k x) := by
  have key : ∀ {A B : ∀ i, α i} {u v : ℝ}, F.Approx A u → F.Approx B v → Follows l F.Approx
      (fun i => (do let g ← npLog ((A i * X i + B i) * X i + 1.0); pure (4.343 * g) : Py (α i))) (do let g ← npLog ((u * x + v) * x + 1.0); pure (4.343 * g)) := by
    intro A B u v hA hB
    refine Follows.bind (Follows.log (F := F) (by appr)) (fun b g _ hb => Follows.pure ?_)
    appr
  interval_cases k
  · exact key (Refining.Approx.lit 250 true 1) (Refining.Approx.lit 240 true 1)
  · exact key (Refining.Approx.lit 800 true 1) (Refining.Approx.lit 450 true 1)
  · exact key (Refining.Approx.lit 1770 true 1) (Refining.Approx.lit 680 true 1)
  · exact key (Refining.Approx.lit 3950 true 1) (Refining.Approx.lit 800 true 1)
  · exact key (Refining.Approx.lit 7050 true 1) (Refining.Approx.lit 1050 true 1)

theorem ofInt_approx (F : Refining l α ε) (n : ℤ) : F.Approx (fun i => (PyNum.ofInt n : α i)) (n : ℝ) := by
  have hε : ∀ᶠ i in l, |(n : ℝ)| ≤ 1 / ε i := by
    have h0 : (0 : ℝ) < 1 / (|(n : ℝ)| + 1) := by positivity
    filter_upwards [F.tends.eventually (gt_mem_nhds h0)] with i hi
    have := F.pos i
    rw [le_div_iff₀ this]
    rw [lt_div_iff₀ (by positivity)] at hi
    linarith
  refine ⟨hε.mono fun i hi => ((F.arith i).ofInt n hi).1, ?_⟩
  refine (isBigO_zero ε l).congr' ?_ (EventuallyEq.refl _ _)
  filter_upwards [hε] with i hi
  rw [((F.arith i).ofInt n hi).2, sub_self]

/-- The interpolation of `h0f` between two rows. -/
theorem refine_mix {E : ∀ i, α i} {e : ℝ} (hE : F.Approx E e) (n : ℤ) {A B : ∀ i, α i} {u v : ℝ} (hA : F.Approx A u) (hB : F.Approx B v) :
    F.Approx (fun i => if ¬ pyEq (E i - PyNum.ofInt n) 0.0 then (1.0 - (E i - PyNum.ofInt n)) * A i + (E i - PyNum.ofInt n) * B i else A i)
      ((1 - (e - n)) * u + (e - n) * v) := by
  have hq : F.Approx (fun i => E i - PyNum.ofInt n) (e - n) := hE.sub (ofInt_approx F n)
  have h1 : F.Approx (fun i => (1.0 - (E i - PyNum.ofInt n)) * A i + (E i - PyNum.ofInt n) * B i) ((1 - (e - n)) * u + (e - n) * v) := by
    rw [← show (1.0 : ℝ) = 1 by norm_num]
    exact (((Refining.Approx.lit _ _ _).sub hq).mul hA).add (hq.mul hB)
  by_cases c : e = n
  · have e0 : (1 - (e - n)) * u + (e - n) * v = u := by rw [c]; ring
    rw [e0] at h1 ⊢
    exact h1.choose hA
  · refine h1.congr ?_
    filter_upwards [hq.pyEq_not Follows.zero (sub_ne_zero.2 c)] with i hi
    rw [if_pos hi]

theorem refine_h0f {R E : ∀ i, α i} {r e : ℝ} (hR : F.Approx R r) (hE : F.Approx E e) (h1 : 1 ≤ e) (hE1 : ∀ᶠ i in l, 1 ≤ (F.arith i).val (E i)) :
    Follows l F.Approx (fun i => h0f (R i) (E i)) (h0f r e) := by
  intro y hy
  have hr : r ≠ 0 := by
    unfold h0f at hy
    obtain ⟨_, h, _⟩ := bind_eq_ok.1 hy
    exact (pyDiv_eq_ok.1 h).1
  have hx : (0 : ℝ) ≤ npow (1.0 / r) 2 := by rw [npow_real]; positivity
  obtain ⟨X0, hX0, aX0⟩ := Follows.div (F := F) (Refining.Approx.lit 10 true 1) hR _ (pyDiv_ok hr)
  have aX := aX0.npow 2
  -- the five rows
  have rows : ∀ k : ℤ, 0 ≤ k → k ≤ 4 → ∃ W : ∀ i, α i, (∀ᶠ i in l, h0fRow k (npow (X0 i) 2) = .ok (W i)) ∧ F.Approx W (rowR k.toNat (npow (1.0 / r) 2)) :=
    fun k k0 k4 => refine_row k0 k4 aX _ (h0fRow_ok k0 k4 hx)
  -- the value when the efficiency lies between `n` and `n + 1`
  have mid : ∀ n : ℤ, 1 ≤ n → n ≤ 4 → ∃ W : ∀ i, α i, (∀ᶠ i in l, PyNum.floor (E i) = n → h0f (R i) (E i) = .ok (W i)) ∧
      F.Approx W ((1 - (e - n)) * rowR (n - 1).toNat (npow (1.0 / r) 2) + (e - n) * rowR n.toNat (npow (1.0 / r) 2)) := by
    intro n n1 n4
    obtain ⟨A, hA, aA⟩ := rows (n - 1) (by omega) (by omega)
    obtain ⟨B, hB, aB⟩ := rows n (by omega) n4
    refine ⟨_, ?_, refine_mix hE n aA aB⟩
    filter_upwards [hX0, hA, hB] with i x1 x2 x3 hf
    unfold h0f
    simp only [hf]
    rw [if_neg (by omega : ¬ n ≤ 0), if_neg (by omega : ¬ 5 ≤ n)]
    dsimp only
    rw [x1, ok_bind, x2, ok_bind]
    split_ifs with c
    · rw [pure_ok]
    · rw [x3, ok_bind, pure_ok]
  have top : ∃ W : ∀ i, α i, (∀ᶠ i in l, 5 ≤ PyNum.floor (E i) → h0f (R i) (E i) = .ok (W i)) ∧ F.Approx W (rowR 4 (npow (1.0 / r) 2)) := by
    obtain ⟨A, hA, aA⟩ := rows 4 (by omega) (by omega)
    refine ⟨A, ?_, aA⟩
    filter_upwards [hX0, hA] with i x1 x2 hf
    unfold h0f
    have z := (zero_exact F i)
    have zz : pyEq (0.0 : α i) 0.0 := ⟨((F.arith i).le _ _ z.1 z.1).2 le_rfl, ((F.arith i).le _ _ z.1 z.1).2 le_rfl⟩
    simp only [if_neg (show ¬ PyNum.floor (E i) ≤ 0 by omega), if_pos hf]
    rw [x1, ok_bind, show (5 : ℤ) - 1 = 4 from rfl, x2, ok_bind, if_neg (not_not.2 zz), pure_ok]
  -- the exact value
  rw [h0f_ok hr, ok_inj, ← npow_real] at hy
  subst hy
  have fl : ∀ᶠ i in l, PyNum.floor (E i) = ⌊(F.arith i).val (E i)⌋ := hE.1.mono fun i hi => (F.arith i).floor _ hi
  have f1 : 1 ≤ ⌊e⌋ := Int.le_floor.2 (by exact_mod_cast h1)
  have one : (1.0 : ℝ) = 1 := by norm_num
  generalize npow (1.0 / r) 2 = x at *
  unfold tableR
  rw [if_neg (by omega)]
  by_cases c5 : 5 ≤ ⌊e⌋
  · rw [if_pos c5]
    obtain ⟨T, hT, aT⟩ := top
    by_cases e5 : e = 5
    · -- exactly five
      obtain ⟨M, hM, aM⟩ := mid 4 (by omega) le_rfl
      have em : (1 - (e - ((4 : ℤ) : ℝ))) * rowR (4 - 1 : ℤ).toNat x + (e - ((4 : ℤ) : ℝ)) * rowR (4 : ℤ).toNat x = rowR 4 x := by
        rw [e5]; push_cast; norm_num
      rw [em] at aM
      refine ⟨fun i => if 5 ≤ PyNum.floor (E i) then T i else M i, ?_, aT.choose aM⟩
      have lo : ∀ᶠ i in l, 4 < (F.arith i).val (E i) := hE.tendsto.eventually (lt_mem_nhds (by rw [e5]; norm_num))
      filter_upwards [fl, hT, hM, lo] with i k1 k2 k3 k4
      split_ifs with c
      · exact k2 c
      · apply k3
        have : 4 ≤ ⌊(F.arith i).val (E i)⌋ := Int.le_floor.2 (by exact_mod_cast k4.le)
        omega
    · refine ⟨T, ?_, aT⟩
      have : (5 : ℝ) < e := lt_of_le_of_ne (by exact_mod_cast Int.le_floor.1 c5) (Ne.symm e5)
      filter_upwards [fl, hT, hE.tendsto.eventually (lt_mem_nhds this)] with i k1 k2 k3
      apply k2
      rw [k1]
      exact Int.le_floor.2 (by exact_mod_cast le_of_lt k3)
  · rw [if_neg c5, one]
    obtain ⟨M, hM, aM⟩ := mid ⌊e⌋ f1 (by omega)
    have hi : ∀ᶠ i in l, (F.arith i).val (E i) < ⌊e⌋ + 1 := hE.tendsto.eventually (gt_mem_nhds (Int.lt_floor_add_one e))
    by_cases ei : e = ⌊e⌋
    · by_cases n1 : ⌊e⌋ = 1
      · refine ⟨M, ?_, aM⟩
        filter_upwards [fl, hM, hi, hE1] with i k1 k2 k3 k4
        apply k2
        rw [k1]
        exact Int.floor_eq_iff.2 ⟨by rw [n1]; exact_mod_cast k4, k3⟩
      · obtain ⟨N, hN, aN⟩ := mid (⌊e⌋ - 1) (by omega) (by omega)
        have em : (1 - (e - ((⌊e⌋ - 1 : ℤ) : ℝ))) * rowR (⌊e⌋ - 1 - 1 : ℤ).toNat x + (e - ((⌊e⌋ - 1 : ℤ) : ℝ)) * rowR (⌊e⌋ - 1 : ℤ).toNat x =
            (1 - (e - (⌊e⌋ : ℝ))) * rowR (⌊e⌋ - 1).toNat x + (e - (⌊e⌋ : ℝ)) * rowR ⌊e⌋.toNat x := by
          have : e - (⌊e⌋ : ℝ) = 0 := sub_eq_zero.2 ei
          push_cast
          rw [show e - ((⌊e⌋ : ℝ) - 1) = e - (⌊e⌋ : ℝ) + 1 by ring, this]; ring
        rw [em] at aN
        refine ⟨fun i => if PyNum.floor (E i) = ⌊e⌋ then M i else N i, ?_, aM.choose aN⟩
        have lo : ∀ᶠ i in l, (⌊e⌋ : ℝ) - 1 < (F.arith i).val (E i) := hE.tendsto.eventually (lt_mem_nhds (by linarith))
        filter_upwards [fl, hM, hN, lo, hi] with i k1 k2 k3 k4 k5
        split_ifs with c
        · exact k2 c
        · apply k3
          rw [k1] at c ⊢
          have u1 : ⌊e⌋ - 1 ≤ ⌊(F.arith i).val (E i)⌋ := Int.le_floor.2 (by push_cast; linarith)
          have u2 : ⌊(F.arith i).val (E i)⌋ < ⌊e⌋ + 1 := Int.floor_lt.2 (by push_cast; linarith)
          omega
    · refine ⟨M, ?_, aM⟩
      have : (⌊e⌋ : ℝ) < e := lt_of_le_of_ne (Int.floor_le e) (Ne.symm ei)
      filter_upwards [fl, hM, hE.tendsto.eventually (lt_mem_nhds this), hi] with i k1 k2 k3 k4
      apply k2
      rw [k1]
      exact Int.floor_eq_iff.2 ⟨le_of_lt k3, k4⟩

/-- Approximation of the scatter preparation. -/
structure PrepApx (F : Refining l α ε) (S : ∀ i, ScatPrep (α i)) (s : ScatPrep ℝ) : Prop where
  ad : F.Approx (fun i => (S i).ad) s.ad
  rr : F.Approx (fun i => (S i).rr) s.rr
  etq : F.Approx (fun i => (S i).etq) s.etq
  h0s : F.Approx (fun i => (S i).h0s) s.h0s

theorem refine_prep {I : ∀ i, LrIn (α i)} {x : LrIn ℝ} (hi : InApx F I x) (a : Adm x) (c : x.dl.x0 ≠ x.dl.x1 ∨ x.he.x0 = x.he.x1) :
    Follows l (PrepApx F) (fun i => scatPrep (blank 0 (I i))) (scatPrep (blank 0 x)) := by
  obtain ⟨g0, g1, e0, e1, d0, d1, t0, t1, w, dh, en, gm, zr, zi⟩ := hi
  have h0 := a.he0
  have h1 := a.he1
  have q : F.Approx (fun i => (5.67e-6 * (I i).ens - 2.32e-3) * (I i).ens + 0.031) ((5.67e-6 * x.ens - 2.32e-3) * x.ens + 0.031) := by appr
  have h15 : F.Approx (fun i => (-15.0 : α i)) (-15.0) := (Refining.Approx.lit _ _ _).neg
  have ed : F.Approx (fun i => (I i).dl.x0 - (I i).dl.x1) (x.dl.x0 - x.dl.x1) := d0.sub d1
  obtain ⟨R, hR, aR⟩ := Follows.div e1 e0 _ (pyDiv_ok h0.ne')
  have pr : x.he.x1 / x.he.x0 ≠ 0 := by positivity
  obtain ⟨R', hR', aR'⟩ := Follows.div (Refining.Approx.lit (F := F) 10 true 1) aR _ (pyDiv_ok pr)
  intro y hy
  unfold scatPrep at hy ⊢
  rw [show (blank 0 x).he.x1 /! (blank 0 x).he.x0 = .ok (x.he.x1 / x.he.x0) from pyDiv_ok h0.ne', ok_bind] at hy
  by_cases tie : x.dl.x0 = x.dl.x1
  · have eh := c.resolve_left (not_not.2 tie)
    have one : x.he.x1 / x.he.x0 = 1 := by rw [eh]; exact div_self h1.ne'
    have z0 : x.dl.x0 - x.dl.x1 = 0 := sub_eq_zero.2 tie
    have nl : ¬ (blank 0 x).dl.x0 - (blank 0 x).dl.x1 < 0.0 := by
      have : (blank 0 x).dl.x0 - (blank 0 x).dl.x1 = 0 := z0
      rw [this]; norm_num
    dsimp only at hy
    rw [if_neg nl] at hy
    simp only [pure_ok, ok_bind, ok_inj] at hy
    subst hy
    refine ⟨fun i => ⟨if (I i).dl.x0 - (I i).dl.x1 < 0.0 then -((I i).dl.x0 - (I i).dl.x1) else (I i).dl.x0 - (I i).dl.x1,
      if (I i).dl.x0 - (I i).dl.x1 < 0.0 then R' i else R i, (5.67e-6 * (I i).ens - 2.32e-3) * (I i).ens + 0.031, -15.0⟩, ?_, ⟨?_, ?_, q, h15⟩⟩
    · filter_upwards [hR, hR'] with i k1 k2
      dsimp only
      rw [show (blank 0 (I i)).he.x1 /! (blank 0 (I i)).he.x0 = .ok (R i) from k1, ok_bind]
      by_cases cc : (I i).dl.x0 - (I i).dl.x1 < 0.0
      · rw [if_pos (show (blank 0 (I i)).dl.x0 - (blank 0 (I i)).dl.x1 < 0.0 from cc), k2, ok_bind, if_pos cc, if_pos cc]
        rfl
      · rw [if_neg (show ¬ (blank 0 (I i)).dl.x0 - (blank 0 (I i)).dl.x1 < 0.0 from cc), if_neg cc, if_neg cc]
        rfl
    · have e2 := ed.neg
      rw [z0, neg_zero] at e2
      have e3 := ed
      rw [z0] at e3
      have := e2.choose (c := fun i => (I i).dl.x0 - (I i).dl.x1 < 0.0) e3
      rw [← z0] at this
      exact this
    · have e2 := aR'
      rw [one, show (OfScientific.ofScientific 10 true 1 : ℝ) / 1 = 1 by norm_num] at e2
      have e3 := aR
      rw [one] at e3
      have := e2.choose (c := fun i => (I i).dl.x0 - (I i).dl.x1 < 0.0) e3
      rw [← one] at this
      exact this
  · have key : Follows l (PrepApx F) (fun i => (if (I i).dl.x0 - (I i).dl.x1 < 0.0 then
        .ok { ad := -((I i).dl.x0 - (I i).dl.x1), rr := R' i, etq := (5.67e-6 * (I i).ens - 2.32e-3) * (I i).ens + 0.031, h0s := -15.0 }
        else .ok { ad := (I i).dl.x0 - (I i).dl.x1, rr := R i, etq := (5.67e-6 * (I i).ens - 2.32e-3) * (I i).ens + 0.031, h0s := -15.0 } : Py (ScatPrep (α i))))
        (if x.dl.x0 - x.dl.x1 < 0.0 then
        .ok { ad := -(x.dl.x0 - x.dl.x1), rr := 1.0 / (x.he.x1 / x.he.x0), etq := (5.67e-6 * x.ens - 2.32e-3) * x.ens + 0.031, h0s := -15.0 }
        else .ok { ad := x.dl.x0 - x.dl.x1, rr := x.he.x1 / x.he.x0, etq := (5.67e-6 * x.ens - 2.32e-3) * x.ens + 0.031, h0s := -15.0 } : Py (ScatPrep ℝ)) := by
      refine Follows.ite (ed.lt_iff (Refining.Approx.lit _ _ _) ?_) (fun _ => Follows.ok ⟨ed.neg, aR', q, h15⟩) (fun _ => Follows.ok ⟨ed, aR, q, h15⟩)
      rw [show (OfScientific.ofScientific 0 true 1 : ℝ) = 0 by norm_num]
      exact sub_ne_zero.2 tie
    obtain ⟨b, hb, qb⟩ := key y (by
      rw [← hy]
      dsimp only
      by_cases cc : x.dl.x0 - x.dl.x1 < 0.0
      · rw [if_pos cc, if_pos (show (blank 0 x).dl.x0 - (blank 0 x).dl.x1 < 0.0 from cc), pyDiv_ok pr]
        rfl
      · rw [if_neg cc, if_neg (show ¬ (blank 0 x).dl.x0 - (blank 0 x).dl.x1 < 0.0 from cc)]
        rfl)
    refine ⟨b, ?_, qb⟩
    filter_upwards [hb, hR, hR'] with i k0 k1 k2
    rw [← k0]
    dsimp only
    rw [show (blank 0 (I i)).he.x1 /! (blank 0 (I i)).he.x0 = .ok (R i) from k1, ok_bind]
    by_cases cc : (I i).dl.x0 - (I i).dl.x1 < 0.0
    · rw [if_pos (show (blank 0 (I i)).dl.x0 - (blank 0 (I i)).dl.x1 < 0.0 from cc), k2, ok_bind, if_pos cc]
      rfl
    · rw [if_neg (show ¬ (blank 0 (I i)).dl.x0 - (blank 0 (I i)).dl.x1 < 0.0 from cc), if_neg cc]
      rfl

/-- The frequency gain before the comparison with the one at the farther distance. -/
def gainC {β : Type} [PyNum β] (d : β) (p : PropSt β) (s : ScatPrep β) : Py β := do
  let ss ← (d - s.ad) /! (d + s.ad)
  let q ← s.rr /! ss
  let z0 ← ((d - s.ad) * (d + s.ad) * (ascatR d p).1 * 0.25) /! d
  let et := (s.etq * PyNum.exp (-(npow (pyMin 1.7 (z0 / 8.0e3)) 6)) + 1.0) * z0 / 1.7556e3
  let f1 ← h0f (ascatR d p).2.1 (pyMax et 1.0)
  let f2 ← h0f (ascatR d p).2.2 (pyMax et 1.0)
  let l1 ← npLog (pyMax et 1.0)
  let l2 ← npLog (pyMax 0.1 ss)
  let l3 ← npLog (pyMin (pyMax 0.1 q) 10.0)
  let h0 := pyMax ((f1 + f2) * 0.5 + pyMin ((f1 + f2) * 0.5) ((1.38 - l1) * l2 * l3 * 0.49)) 0.0
  if et < 1.0 then do
    let u1 ← 1.4142 /! (ascatR d p).2.1
    let u2 ← 1.4142 /! (ascatR d p).2.2
    let u3 ← (npow ((1.0 + u1) * (1.0 + u2)) 2 * ((ascatR d p).2.1 + (ascatR d p).2.2)) /! ((ascatR d p).2.1 + (ascatR d p).2.2 + 2.8284)
    let u4 ← npLog u3
    pure (et * h0 + (1.0 - et) * 4.343 * u4)
  else pure h0

theorem ascatH0_gain {β : Type} [PyNum β] (d : β) (p : PropSt β) (s : ScatPrep β) :
    ascatH0 d p s = (do let g ← gainC d p s; pure (if 15.0 < g ∧ 0.0 ≤ s.h0s then s.h0s else g)) := by
  unfold ascatH0 gainC
  simp only [bind_assoc]
  refine congrArg₂ Bind.bind rfl (funext fun _ => congrArg₂ Bind.bind rfl (funext fun _ => congrArg₂ Bind.bind rfl (funext fun _ => congrArg₂ Bind.bind rfl (funext fun _ =>
    congrArg₂ Bind.bind rfl (funext fun _ => congrArg₂ Bind.bind rfl (funext fun _ => congrArg₂ Bind.bind rfl (funext fun _ => congrArg₂ Bind.bind rfl (funext fun _ => ?_))))))))
  split_ifs
  · simp only [bind_assoc, pure_bind]
  · simp only [pure_bind]

theorem max_one {e : ∀ i, α i} {x : ℝ} (h : F.Approx e x) : ∀ᶠ i in l, 1 ≤ (F.arith i).val (pyMax (e i) 1.0) := by
  have hε : ∀ᶠ i in l, (1 : ℝ) ≤ 1 / ε i := by
    filter_upwards [F.tends.eventually (gt_mem_nhds one_pos)] with i hi
    have := F.pos i
    rw [le_div_iff₀ this]
    linarith
  filter_upwards [h.1, hε] with i h1 h2
  have w := (F.arith i).whole 10 true 1 1 (by norm_num) (by simpa using h2)
  rw [Int.cast_one] at w
  unfold pyMax
  split_ifs with c
  · rw [w.2]
  · rw [← w.2]
    by_contra k
    exact c (((F.arith i).lt _ _ h1 w.1).2 (not_le.1 k))

theorem refine_gain {I : ∀ i, LrIn (α i)} {p : PropSt ℝ} (hi : InApx F I (inp p)) {S : ∀ i, ScatPrep (α i)} {s : ScatPrep ℝ} (hS : PrepApx F S s)
    {D : ∀ i, α i} {d : ℝ} (hD : F.Approx D d) (p1 : s.ad = (linkOf p).ad) (p3 : s.etq = 0.031 - 0.00232 * p.ens + 5.67e-6 * p.ens ^ 2)
    (he : (linkOf p).eta d ≠ 1) : Follows l F.Approx (fun i => gainC (D i) (blank 0 (I i)) (S i)) (gainC d (blank 0 (inp p)) s) := by
  obtain ⟨g0, g1, e0, e1, d0, d1, t0, t1, w, dh, en, gm, zr, zi⟩ := hi
  obtain ⟨s1, s2, s3, s4⟩ := hS
  have a1 : F.Approx (fun i => (ascatR (D i) (blank 0 (I i))).1) (ascatR d (blank 0 (inp p))).1 := (t0.add t1).add (hD.mul gm)
  have a2 : F.Approx (fun i => (ascatR (D i) (blank 0 (I i))).2.1) (ascatR d (blank 0 (inp p))).2.1 := (((Refining.Approx.lit _ _ _).mul w).mul a1).mul e0
  have a3 : F.Approx (fun i => (ascatR (D i) (blank 0 (I i))).2.2) (ascatR d (blank 0 (inp p))).2.2 := (((Refining.Approx.lit _ _ _).mul w).mul a1).mul e1
  have v1 : (ascatR d (blank 0 (inp p))).1 = (linkOf p).scatterAngle d := by rw [Props.ascatR_spec]
  unfold gainC
  generalize hA : (fun i => (ascatR (D i) (blank 0 (I i))).1) = A1 at *
  generalize hA2 : (fun i => (ascatR (D i) (blank 0 (I i))).2.1) = A2 at *
  generalize hA3 : (fun i => (ascatR (D i) (blank 0 (I i))).2.2) = A3 at *
  simp only [fun i => congrFun hA i, fun i => congrFun hA2 i, fun i => congrFun hA3 i]
  refine Follows.bind (Follows.div (hD.sub s1) (hD.add s1)) (fun ss y _ hss => ?_)
  refine Follows.bind (Follows.div s2 hss) (fun q y' _ hq => ?_)
  refine Follows.bind (Follows.div (F := F) (by appr) hD) (fun z v hv hz => ?_)
  have ez : v = (linkOf p).z0 d := by
    rw [(pyDiv_eq_ok.1 hv).2, p1, v1]
    unfold Link.z0
    have := (pyDiv_eq_ok.1 hv).1
    rw [show ((0.25 : ℝ)) = 1 / 4 by norm_num]
    field_simp
  have z8 : F.Approx (fun i => z i / 8.0e3) (v / 8.0e3) := hz.div (Refining.Approx.lit _ _ _) (by norm_num)
  have het : F.Approx (fun i => ((S i).etq * PyNum.exp (-(npow (pyMin 1.7 (z i / 8.0e3)) 6)) + 1.0) * z i / 1.7556e3)
      ((s.etq * PyNum.exp (-(npow (pyMin 1.7 (v / 8.0e3)) 6)) + 1.0) * v / 1.7556e3) := by
    refine Refining.Approx.div ?_ (Refining.Approx.lit _ _ _) (by norm_num)
    appr
  have eet : (s.etq * PyNum.exp (-(npow (pyMin 1.7 (v / 8.0e3)) 6)) + 1.0) * v / 1.7556e3 = (linkOf p).eta d := by
    rw [p3, ez, npow_real, pyMin_real, rexp]
    unfold Link.eta
    rw [show (8.0e3 : ℝ) = 8000 by norm_num, show (1.7556e3 : ℝ) = 1755.6 by norm_num, show (linkOf p).ens = p.ens from rfl]
    norm_num
    ring
  rw [eet] at het ⊢
  generalize hE : (fun i => ((S i).etq * PyNum.exp (-(npow (pyMin 1.7 (z i / 8.0e3)) 6)) + 1.0) * z i / 1.7556e3) = E at *
  simp only [fun i => congrFun hE i]
  have m1 := max_one het
  have mE : F.Approx (fun i => pyMax (E i) 1.0) (pyMax ((linkOf p).eta d) 1.0) := by appr
  have m0 : 1 ≤ pyMax ((linkOf p).eta d) 1.0 := by rw [pyMax_real]; exact le_trans (by norm_num) (le_max_right _ _)
  refine Follows.bind (refine_h0f a2 mE m0 m1) (fun f1 y1 _ h1 => ?_)
  refine Follows.bind (refine_h0f a3 mE m0 m1) (fun f2 y2 _ h2 => ?_)
  refine Follows.bind (Follows.log mE) (fun l1 y3 _ h3 => ?_)
  refine Follows.bind (Follows.log (F := F) (by appr)) (fun l2 y4 _ h4 => ?_)
  refine Follows.bind (Follows.log (F := F) (by appr)) (fun l3 y5 _ h5 => ?_)
  refine Follows.ite (het.lt_iff (Refining.Approx.lit _ _ _) ?_) (fun _ => ?_) (fun _ => ?_)
  · rw [show (OfScientific.ofScientific 10 true 1 : ℝ) = 1 by norm_num]; exact he
  · refine Follows.bind (Follows.div (Refining.Approx.lit _ _ _) a2) (fun u1 y6 _ h6 => ?_)
    refine Follows.bind (Follows.div (Refining.Approx.lit _ _ _) a3) (fun u2 y7 _ h7 => ?_)
    refine Follows.bind (Follows.div (F := F) (by appr) (by appr)) (fun u3 y8 _ h8 => ?_)
    refine Follows.bind (Follows.log h8) (fun u4 y9 _ h9 => ?_)
    refine Follows.pure ?_
    appr
  · refine Follows.pure ?_
    appr

theorem gain_value {p : PropSt ℝ} {s : ScatPrep ℝ} (h1 : s.ad = (linkOf p).ad) (h2 : s.rr = (linkOf p).rr)
    (h3 : s.etq = 0.031 - 0.00232 * p.ens + 5.67e-6 * p.ens ^ 2) {d g : ℝ} (h : gainC d (blank 0 (inp p)) s = .ok g) :
    g = (linkOf p).scatterGain d := by
  have e : ascatH0 d (blank 0 (inp p)) { s with h0s := -15 } = .ok g := by
    rw [ascatH0_gain, show gainC d (blank 0 (inp p)) { s with h0s := -15 } = gainC d (blank 0 (inp p)) s from rfl, h, ok_bind]
    rw [if_neg (by norm_num), pure_ok]
  have := Props.ascatH0_spec (p := p) (s := { s with h0s := -15 }) h1 h2 h3 e
  rwa [if_neg (by norm_num)] at this

theorem refine_H0 {I : ∀ i, LrIn (α i)} {p : PropSt ℝ} (hi : InApx F I (inp p)) {S : ∀ i, ScatPrep (α i)} {s : ScatPrep ℝ} (hS : PrepApx F S s)
    {D : ∀ i, α i} {d : ℝ} (hD : F.Approx D d) (p1 : s.ad = (linkOf p).ad) (p2 : s.rr = (linkOf p).rr)
    (p3 : s.etq = 0.031 - 0.00232 * p.ens + 5.67e-6 * p.ens ^ 2)
    (he : (linkOf p).eta d ≠ 1) (hg : (linkOf p).scatterGain d ≠ 15) (hz : 15 < (linkOf p).scatterGain d → s.h0s ≠ 0) :
    Follows l F.Approx (fun i => ascatH0 (D i) (blank 0 (I i)) (S i)) (ascatH0 d (blank 0 (inp p)) s) := by
  simp only [ascatH0_gain]
  refine Follows.bind (refine_gain hi hS hD p1 p3 he) (fun G g hg' hG => ?_)
  have eg := gain_value p1 p2 p3 hg'
  rw [← eg] at hg hz
  have e15 : (15.0 : ℝ) = 15 := by norm_num
  refine Follows.pure ?_
  have lt := (Refining.Approx.lit (F := F) 150 true 1).lt_iff hG (by rw [show (OfScientific.ofScientific 150 true 1 : ℝ) = 15 by norm_num]; exact hg.symm)
  by_cases c : 15 < g
  · have le := (Follows.zero (F := F)).le_iff hS.h0s (hz c).symm
    by_cases c0 : 0 ≤ s.h0s
    · rw [if_pos ⟨by rw [e15]; exact c, by rw [zero_lit]; exact c0⟩]
      refine hS.h0s.congr ?_
      filter_upwards [lt, le] with i k1 k2
      rw [if_pos ⟨k1.2 (by norm_num; exact c), k2.2 c0⟩]
    · rw [if_neg (fun k => c0 (by rw [zero_lit] at k; exact k.2))]
      refine hG.congr ?_
      filter_upwards [le] with i k2
      rw [if_neg (fun k => c0 (k2.1 k.2))]
  · rw [if_neg (fun k => c (by rw [e15] at k; exact k.1))]
    refine hG.congr ?_
    filter_upwards [lt] with i k1
    rw [if_neg (fun k => c (by have := k1.1 k.1; norm_num at this; exact this))]

theorem refine_final {I : ∀ i, LrIn (α i)} {p : PropSt ℝ} (hi : InApx F I (inp p)) {H : ∀ i, Horizon (α i)} {h : Horizon ℝ} (hh : HorApx F H h)
    (et : h.tha = (linkOf p).tha) {D G : ∀ i, α i} {d g : ℝ} (hD : F.Approx D d) (hG : F.Approx G g)
    (c1 : ((linkOf p).tha + d * (linkOf p).gme) * d ≠ 10000) (c2 : ((linkOf p).tha + d * (linkOf p).gme) * d ≠ 70000) :
    Follows l F.Approx (fun i => ascatFinal (D i) (G i) { blank 0 (I i) with hor := some (H i) })
      (ascatFinal d g { blank 0 (inp p) with hor := some h }) := by
  obtain ⟨g0, g1, e0, e1, d0, d1, t0, t1, w, dh, en, gm, zr, zi⟩ := hi
  obtain ⟨s1, s2, s3⟩ := hh
  unfold ascatFinal
  simp only [need, ok_bind]
  have th : F.Approx (fun i => (H i).tha + D i * (I i).gme) (h.tha + d * (inp p).gme) := s3.add (hD.mul gm)
  have e : (h.tha + d * (inp p).gme) = (linkOf p).tha + d * (linkOf p).gme := by rw [et]; rfl
  have x1 : F.Approx (fun i => -((H i).tha + D i * (I i).gme) * D i / 40e3) (-(h.tha + d * (inp p).gme) * d / 40e3) :=
    (th.neg.mul hD).div (Refining.Approx.lit _ _ _) (by norm_num)
  refine Follows.bind (refine_ahd (th.mul hD) ?_ ?_) (fun b y _ hb => ?_)
  · exact fun k => c1 (by rw [← e]; exact k)
  · exact fun k => c2 (by rw [← e]; exact k)
  · refine Follows.bind (Follows.log (((Refining.Approx.lit _ _ _).mul w).mul (th.npow 4))) (fun b' y' _ hb' => ?_)
    exact Follows.pure (((hb.add ((Refining.Approx.lit _ _ _).mul hb')).sub (((Refining.Approx.lit _ _ _).mul (en.sub (Refining.Approx.lit _ _ _))).mul x1.exp)).add hG)

theorem refine_ascat6 {I : ∀ i, LrIn (α i)} {p : PropSt ℝ} (hi : InApx F I (inp p)) {S : ∀ i, ScatPrep (α i)} {s : ScatPrep ℝ} (hS : PrepApx F S s)
    {H : ∀ i, Horizon (α i)} {h : Horizon ℝ} (hh : HorApx F H h) (et : h.tha = (linkOf p).tha) {D A : ∀ i, α i} {d : ℝ} (hD : F.Approx D d) (hA : F.Approx A 0)
    (p1 : s.ad = (linkOf p).ad) (p2 : s.rr = (linkOf p).rr) (p3 : s.etq = 0.031 - 0.00232 * p.ens + 5.67e-6 * p.ens ^ 2) (p4 : s.h0s = -15)
    (c : (linkOf p).HopClear d) :
    Follows l (fun b y => F.Approx (fun i => (b i).1) y.1 ∧ PrepApx F (fun i => (b i).2) y.2 ∧ y.2 = { s with h0s := (linkOf p).scatterGain d })
      (fun i => ascatC (I i) (H i) (S i) (A i) (D i)) (ascatC (inp p) h s 0 d) := by
  have f15 := (Refining.Approx.lit (F := F) 150 true 1).lt_iff hS.h0s (by rw [p4]; norm_num)
  have l2 : (linkOf p).scatterR p.he.x0 d = (ascatR d (blank 0 (inp p))).2.1 := by rw [Props.ascatR_spec]
  have l3 : (linkOf p).scatterR p.he.x1 d = (ascatR d (blank 0 (inp p))).2.2 := by rw [Props.ascatR_spec]
  have a1 : F.Approx (fun i => (ascatR (D i) (blank 0 (I i))).1) (ascatR d (blank 0 (inp p))).1 := (hi.the0.add hi.the1).add (hD.mul hi.gme)
  have a2 : F.Approx (fun i => (ascatR (D i) (blank 0 (I i))).2.1) (ascatR d (blank 0 (inp p))).2.1 := (((Refining.Approx.lit _ _ _).mul hi.wn).mul a1).mul hi.he0
  have a3 : F.Approx (fun i => (ascatR (D i) (blank 0 (I i))).2.2) (ascatR d (blank 0 (inp p))).2.2 := (((Refining.Approx.lit _ _ _).mul hi.wn).mul a1).mul hi.he1
  have hno : ∀ᶠ i in l, ¬ ((ascatR (D i) (blank 0 (I i))).2.1 < 0.2 ∧ (ascatR (D i) (blank 0 (I i))).2.2 < 0.2) := by
    rcases c.usable with u | u
    · have u' : (0.2 : ℝ) < (ascatR d (blank 0 (inp p))).2.1 := by rw [← l2]; exact u
      filter_upwards [a2.lt_iff (Refining.Approx.lit 2 true 1) u'.ne'] with i k q
      exact absurd (k.1 q.1) (not_lt.2 u'.le)
    · have u' : (0.2 : ℝ) < (ascatR d (blank 0 (inp p))).2.2 := by rw [← l3]; exact u
      filter_upwards [a3.lt_iff (Refining.Approx.lit 2 true 1) u'.ne'] with i k q
      exact absurd (k.1 q.2) (not_lt.2 u'.le)
  have hno' : ¬ ((ascatR d (blank 0 (inp p))).2.1 < 0.2 ∧ (ascatR d (blank 0 (inp p))).2.2 < 0.2) := by
    rw [← l2, ← l3]
    rcases c.usable with u | u
    · exact fun q => absurd u (not_lt.2 q.1.le)
    · exact fun q => absurd u (not_lt.2 q.2.le)
  have h1001 := hA.pyEq_not (Refining.Approx.lit 10010 true 1) (by norm_num)
  have key : Follows l (fun b y => F.Approx (fun i => (b i).1) y.1 ∧ PrepApx F (fun i => (b i).2) y.2 ∧ y.2 = { s with h0s := (linkOf p).scatterGain d })
      (fun i => (do
        let h0 ← ascatH0 (D i) (blank 0 (I i)) (S i)
        let a ← ascatFinal (D i) h0 { blank 0 (I i) with hor := some (H i) }
        pure (a, { S i with h0s := h0 }) : Py (α i × ScatPrep (α i)))) (do
        let h0 ← ascatH0 d (blank 0 (inp p)) s
        let a ← ascatFinal d h0 { blank 0 (inp p) with hor := some h }
        pure (a, { s with h0s := h0 })) := by
    refine Follows.bind (refine_H0 hi hS hD p1 p2 p3 c.eta c.gain (fun _ => by rw [p4]; norm_num)) (fun G g hg hG => ?_)
    have e0 := Props.ascatH0_spec p1 p2 p3 hg
    rw [if_neg (by rw [p4]; norm_num)] at e0
    refine Follows.bind (refine_final hi hh et hD hG c.low c.high) (fun b y _ hb => ?_)
    exact Follows.pure ⟨hb, ⟨hS.ad, hS.rr, hS.etq, hG⟩, by rw [e0]⟩
  unfold ascatC
  rw [if_neg (by rw [p4]; norm_num)]
  simp only [if_neg hno']
  simp only [if_pos (show ¬ pyEq (0 : ℝ) 1001.0 by rw [pyEq_real]; norm_num)]
  refine key.congr ?_
  filter_upwards [f15, hno, h1001] with i k1 k2 k3
  rw [if_neg (fun q => by have := k1.1 q; rw [p4] at this; norm_num at this)]
  simp only [if_neg k2, if_pos k3]

theorem refine_ascat5 {I : ∀ i, LrIn (α i)} {p : PropSt ℝ} (hi : InApx F I (inp p)) {S : ∀ i, ScatPrep (α i)} {s : ScatPrep ℝ} (hS : PrepApx F S s)
    {H : ∀ i, Horizon (α i)} {h : Horizon ℝ} (hh : HorApx F H h) (et : h.tha = (linkOf p).tha) {D A : ∀ i, α i} {d a1 : ℝ} (hD : F.Approx D d)
    (p1 : s.ad = (linkOf p).ad) (p2 : s.rr = (linkOf p).rr) (p3 : s.etq = 0.031 - 0.00232 * p.ens + 5.67e-6 * p.ens ^ 2) (p4 : s.h0s ≠ 15)
    (c : (linkOf p).HopClear d) (hz : 15 < (linkOf p).scatterGain d → s.h0s ≠ 0) :
    Follows l (fun b y => F.Approx (fun i => (b i).1) y.1)
      (fun i => ascatC (I i) (H i) (S i) (A i) (D i)) (ascatC (inp p) h s a1 d) := by
  have f15 := (Refining.Approx.lit (F := F) 150 true 1).lt_iff hS.h0s
    (by rw [show (OfScientific.ofScientific 150 true 1 : ℝ) = 15 by norm_num]; exact p4.symm)
  unfold ascatC
  refine Follows.ite f15 (fun _ => ?_) (fun _ => ?_)
  · refine Follows.bind (refine_final hi hh et hD hS.h0s c.low c.high) (fun b y _ hb => Follows.pure hb)
  · refine Follows.bind (refine_H0 hi hS hD p1 p2 p3 c.eta c.gain hz) (fun G g hg hG => ?_)
    exact Follows.bind (refine_final hi hh et hD hG c.low c.high) (fun b y _ hb => Follows.pure hb)

/-- Approximation of the scatter line. -/
structure ScaApx (F : Refining l α ε) (K : ∀ i, ScatC (α i)) (k : ScatC ℝ) : Prop where
  ems : F.Approx (fun i => (K i).ems) k.ems
  dx : F.Approx (fun i => (K i).dx) k.dx
  aes : F.Approx (fun i => (K i).aes) k.aes

theorem refine_coef {I : ∀ i, LrIn (α i)} {x : LrIn ℝ} (hi : InApx F I x) {H : ∀ i, Horizon (α i)} {h : Horizon ℝ} (hh : HorApx F H h)
    {L : ∀ i, DiffLine (α i)} {y : DiffLine ℝ} (hL : LinApx F L y) {D A B : ∀ i, α i} {d a5 a6 : ℝ} (hD : F.Approx D d) (hA : F.Approx A a5)
    (hB : F.Approx B a6) (c : a5 ≠ 1000) :
    Follows l (ScaApx F) (fun i => scatCoef (blank 0 (I i)) (H i) (L i) (D i) (A i) (B i)) (scatCoef (blank 0 x) h y d a5 a6) := by
  obtain ⟨g0, g1, e0, e1, d0, d1, t0, t1, w, dh, en, gm, zr, zi⟩ := hi
  obtain ⟨s1, s2, s3⟩ := hh
  obtain ⟨l1, l2, l3, l4⟩ := hL
  unfold scatCoef
  have k : F.Approx (fun i => (B i - A i) / 200e3) ((a6 - a5) / 200e3) := (hB.sub hA).div (Refining.Approx.lit _ _ _) (by norm_num)
  refine Follows.ite (hA.lt_iff (Refining.Approx.lit _ _ _) (by norm_num; exact c)) (fun _ => ?_) (fun _ => ?_)
  · dsimp only
    refine Follows.bind (Follows.log (Refining.Approx.mul (Refining.Approx.lit _ _ _) w)) (fun b v _ hb => ?_)
    refine Follows.bind (Follows.div (F := F) ((hA.sub l3).sub (k.mul hD)) (l2.sub k)) (fun b' v' _ hb' => ?_)
    have dx : F.Approx (fun i => pyMax (pyMax (H i).dlsa ((H i).dla + 0.3 * (L i).xae * b i)) (b' i)) (pyMax (pyMax h.dlsa (h.dla + 0.3 * y.xae * v)) v') :=
      (s1.pyMax (s2.add (((Refining.Approx.lit _ _ _).mul l1).mul hb))).pyMax hb'
    exact Follows.pure ⟨k, dx, ((l2.sub k).mul dx).add l3⟩
  · exact Follows.pure ⟨l2, Refining.Approx.lit _ _ _, l3⟩

theorem refine_scat {p : PropSt ℝ} {s : Setup ℝ} (hs : setupC p.mdp (inp p) = .ok s) {I : ∀ i, LrIn (α i)} (hi : InApx F I (inp p)) (a : Adm (inp p))
    {S : ∀ i, Setup (α i)} (hS : SetApx F S s) {A : ∀ i, α i} (hA : F.Approx A 0) (c : (linkOf p).ScatterClear) :
    Follows l (fun b y => ScaApx F (fun i => (b i).2.2) y.2.2) (fun i => scatC (I i) (S i).h (S i).l (A i)) (scatC (inp p) s.h s.l 0) := by
  obtain ⟨_, ⟨e1, e2, e3⟩, _⟩ := Props.line_spec hs
  have ed5 : s.h.dla + 200e3 = (linkOf p).d5 := by rw [e2]; unfold Link.d5; norm_num
  have ed6 : (linkOf p).d5 + 200e3 = (linkOf p).d6 := by unfold Link.d5 Link.d6; norm_num; ring
  have D5 : F.Approx (fun i => (S i).h.dla + 200e3) (linkOf p).d5 := by rw [← ed5]; exact hS.h.dla.add (Refining.Approx.lit _ _ _)
  have D6 : F.Approx (fun i => (S i).h.dla + 200e3 + 200e3) (linkOf p).d6 := by rw [← ed6]; exact D5.add (Refining.Approx.lit _ _ _)
  unfold scatC
  dsimp only
  rw [ed5, ed6]
  refine Follows.bind (refine_prep hi a c.ratio) (fun Q s0 hs0 hQ => ?_)
  obtain ⟨p1, p2, p3, p4⟩ := Props.scatPrep_spec hs0
  refine Follows.bind (refine_ascat6 hi hQ hS.h e3 D6 hA p1 p2 p3 p4 c.h6) (fun B x6 h6 hB => ?_)
  obtain ⟨b1, b2, b3⟩ := hB
  have eq1 : x6.2.ad = (linkOf p).ad := by rw [b3]; exact p1
  have eq2 : x6.2.rr = (linkOf p).rr := by rw [b3]; exact p2
  have eq3 : x6.2.etq = 0.031 - 0.00232 * p.ens + 5.67e-6 * p.ens ^ 2 := by rw [b3]; exact p3
  have eq4 : x6.2.h0s = (linkOf p).scatterGain (linkOf p).d6 := by rw [b3]
  refine Follows.bind (refine_ascat5 (A := fun i => (B i).1) hi b2 hS.h e3 D5 eq1 eq2 eq3 (by rw [eq4]; exact c.h6.gain) c.h5
    (by rw [eq4]; exact c.zero)) (fun E x5 h5 hE => ?_)
  have ok6 : (linkOf p).ScatterOk (linkOf p).d6 := c.h6.usable.imp le_of_lt le_of_lt
  have h6' : ascatC (inp p) s.h s0 0.0 (linkOf p).d6 = .ok (x6.1, x6.2) := by rw [zero_lit]; exact h6
  obtain ⟨v6, v5⟩ := Props.scat_values e3 hs0 h6' (show ascatC (inp p) s.h x6.2 x6.1 (linkOf p).d5 = .ok (x5.1, x5.2) from h5) ok6 rfl
  refine Follows.bind (refine_coef hi hS.h hS.l D5 hE b1 (by rw [v5]; exact c.a5)) (fun K k _ hK => ?_)
  exact Follows.pure hK

theorem refine_far {L : ∀ i, DiffLine (α i)} {y : DiffLine ℝ} (hL : LinApx F L y) {K : ∀ i, ScatC (α i)} {k : ScatC ℝ} (hK : ScaApx F K k)
    {D : ∀ i, α i} {d : ℝ} (hD : F.Approx D d) (c : k.dx = d → k.aes + k.ems * d = y.aed + y.emd * d) :
    F.Approx (fun i => farAref (L i) (K i) (D i)) (farAref y k d) := by
  unfold farAref
  have h1 := hK.aes.add (hK.ems.mul hD)
  have h2 := hL.aed.add (hL.emd.mul hD)
  by_cases tie : k.dx = d
  · rw [c tie] at h1 ⊢
    rw [ite_self]
    exact h1.choose h2
  · have lt := hK.dx.lt_iff hD tie
    by_cases q : k.dx < d
    · rw [if_pos q]
      refine h1.congr ?_
      filter_upwards [lt] with i hi
      rw [if_pos (hi.2 q)]
    · rw [if_neg q]
      refine h2.congr ?_
      filter_upwards [lt] with i hi
      rw [if_neg (fun w => q (hi.1 w))]

/-- Where scatter takes over, its line meets the diffraction line. -/
theorem scat_meets {i : LrIn ℝ} {h : Horizon ℝ} {y : DiffLine ℝ} {a1 : ℝ} {r : ℝ × ScatPrep ℝ × ScatC ℝ} (hr : scatC i h y a1 = .ok r) :
    r.2.2.aes + r.2.2.ems * r.2.2.dx = y.aed + y.emd * r.2.2.dx := by
  unfold scatC at hr
  obtain ⟨s0, _, hr⟩ := bind_eq_ok.1 hr
  dsimp only at hr
  obtain ⟨x6, _, hr⟩ := bind_eq_ok.1 hr
  obtain ⟨x5, _, hr⟩ := bind_eq_ok.1 hr
  obtain ⟨k, hk, hr⟩ := bind_eq_ok.1 hr
  rw [pure_ok, ok_inj] at hr
  rw [← hr]
  dsimp only
  unfold scatCoef at hk
  split_ifs at hk with c
  · obtain ⟨_, _, hk⟩ := bind_eq_ok.1 hk
    obtain ⟨_, _, hk⟩ := bind_eq_ok.1 hk
    rw [pure_ok, ok_inj] at hk
    rw [← hk]
    ring
  · rw [pure_ok, ok_inj] at hk
    rw [← hk]

end Itm

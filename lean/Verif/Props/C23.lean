import Verif.Lemmas.Recip
import Verif.Props.C17

/-! C23: reciprocity. -/

namespace Itm
open Spec

theorem max_if_comm (a b : Prop) [Decidable a] [Decidable b] (k m : Int) :
    (if a then max (if b then max k m else k) m else (if b then max k m else k)) =
      (if b then max (if a then max k m else k) m else (if a then max k m else k)) := by
  split_ifs <;> omega

theorem four_if_comm (a b : Prop) [Decidable a] [Decidable b] (k : Int) :
    (if a then 4 else (if b then 4 else k)) = (if b then 4 else (if a then 4 else k)) := by
  split_ifs <;> rfl

end Itm

namespace Itm.Props
open Itm Itm.Spec

/-- **C23** Exchanging the terminals changes neither the reference attenuation nor any coefficient. -/
theorem C23_reciprocal {p q : PropSt ℝ} {d : ℝ} (hm : p.mdp ≠ 0) (h0 : 0 < p.he.x0) (h1 : 0 < p.he.x1)
    (h : lrprop d p = .ok q) : ∃ q', lrprop d (exchange p) = .ok q' ∧ q'.aref = q.aref ∧ q'.diff = q.diff ∧
      q'.line = q.line ∧ q'.wlos = q.wlos ∧ q'.los = q.los ∧ q'.wscat = q.wscat ∧ q'.scat = q.scat ∧ q'.dist = q.dist := by
  rw [lrprop_setup hm] at h
  obtain ⟨s, hs, h⟩ := bind_eq_ok.1 h
  obtain ⟨c, hc, h⟩ := bind_eq_ok.1 h
  obtain ⟨s', hc'⟩ := runC_swap (i := inp p) h0.ne' h1.ne' rfl hc
  rw [pure_ok, ok_inj] at h
  rw [lrprop_setup (p := exchange p) hm, show setupC (exchange p).mdp (inp (exchange p)) = _ from setupC_swap hs, ok_bind]
  simp only
  rw [show runC (inp (exchange p)) (swapH s.h) s.l (distOf (exchange p) d) { cacheOf (exchange p) with wlos := false, wscat := false, ascat1 := 0.0 } = _ from hc',
    ok_bind, pure_ok]
  refine ⟨_, rfl, ?_⟩
  rw [← h]
  exact ⟨rfl, rfl, rfl, rfl, rfl, rfl, rfl, rfl⟩

/-- **C23** and conversely, so both ends succeed or fail together. -/
theorem C23_both_or_none {p : PropSt ℝ} {d : ℝ} (hm : p.mdp ≠ 0) (h0 : 0 < p.he.x0) (h1 : 0 < p.he.x1) :
    (∃ q, lrprop d p = .ok q) ↔ (∃ q, lrprop d (exchange p) = .ok q) := by
  constructor
  · rintro ⟨q, h⟩
    obtain ⟨q', h', _⟩ := C23_reciprocal hm h0 h1 h
    exact ⟨q', h'⟩
  · rintro ⟨q, h⟩
    obtain ⟨q', h', _⟩ := C23_reciprocal (p := exchange p) hm h1 h0 h
    exact ⟨q', h'⟩

/-- **C23** (warning half, as far as it holds) The marker is the same from both ends provided each horizon distance is
within three times both smooth-earth horizon distances. Full statement: without that proviso; it is false, see
`C23_kwx_refuted`. -/
theorem C23_kwx_partial {p q q' : PropSt ℝ} {d : ℝ} (hm : p.mdp ≠ 0)
    (h00 : p.dl.x0 ≤ 3 * smoothHorizon p.he.x0 p.gme) (h01 : p.dl.x0 ≤ 3 * smoothHorizon p.he.x1 p.gme)
    (h10 : p.dl.x1 ≤ 3 * smoothHorizon p.he.x0 p.gme) (h11 : p.dl.x1 ≤ 3 * smoothHorizon p.he.x1 p.gme)
    (h : lrprop d p = .ok q) (h' : lrprop d (exchange p) = .ok q') : q'.kwx = q.kwx := by
  obtain ⟨s, _, hd, e, e0, e1, em⟩ := setup_kwx hm h
  obtain ⟨s', _, hd', e', e0', e1', em'⟩ := setup_kwx (p := exchange p) hm h'
  have c4 : (3.0 : ℝ) = 3 := by norm_num
  have em2 : s'.l.dmin = s.l.dmin := by
    rw [em', em, show (exchange p).he.x0 = p.he.x1 from rfl, show (exchange p).he.x1 = p.he.x0 from rfl, abs_sub_comm]
  have ek : lrKwx (exchange p) s'.h = lrKwx p s.h := by
    unfold lrKwx
    rw [e0, e1, e0', e1']
    rw [show (exchange p).kwx = p.kwx from rfl, show (exchange p).wn = p.wn from rfl, show (exchange p).hg.x0 = p.hg.x1 from rfl,
      show (exchange p).hg.x1 = p.hg.x0 from rfl, show (exchange p).the.x0 = p.the.x1 from rfl,
      show (exchange p).the.x1 = p.the.x0 from rfl, show (exchange p).dl.x0 = p.dl.x1 from rfl,
      show (exchange p).dl.x1 = p.dl.x0 from rfl, show (exchange p).he.x0 = p.he.x1 from rfl,
      show (exchange p).he.x1 = p.he.x0 from rfl, show (exchange p).gme = p.gme from rfl,
      show (exchange p).ens = p.ens from rfl, show (exchange p).zgnd = p.zgnd from rfl, c4]
    simp only [not_lt.2 h00, not_lt.2 h01, not_lt.2 h10, not_lt.2 h11, or_false]
    rw [four_if_comm, max_if_comm (0.2 < PyNum.abs p.the.x0 ∨ _), max_if_comm (p.hg.x0 < _ ∨ _)]
  rw [e', e, ek, show distOf (exchange p) d = distOf p d from rfl]
  unfold distKwxC
  rw [em2]

/-- **C23** (warning half, refuted) The skew link is reported clean from one end and doubtful from the other. -/
theorem C23_kwx_refuted : ¬ ∀ (p q q' : PropSt ℝ) (d : ℝ), p.mdp ≠ 0 → 0 < p.he.x0 → 0 < p.he.x1 →
    lrprop d p = .ok q → lrprop d (exchange p) = .ok q' → q'.kwx = q.kwx := by
  intro hall
  obtain ⟨q, hq, hk⟩ := skew_kwx
  have p0 : 0 < skew.he.x0 := show (0 : ℝ) < 400 by norm_num
  obtain ⟨q', hq', _⟩ := C23_reciprocal (p := skew) (by decide) p0 p0 hq
  have := hall skew q q' 300000 (by decide) p0 p0 hq hq'
  rw [hk] at this
  have z := (C17_kwx_zero_partial (p := exchange skew) (by decide) (by decide) hq' this).2.2.2.2
  have hsq : smoothHorizon 400 1.25e-7 = 80000 := by
    unfold smoothHorizon
    rw [show (2 * 400 / 1.25e-7 : ℝ) = 80000 ^ 2 by norm_num, Real.sqrt_sq (by norm_num)]
  rw [show (exchange skew).dl.x1 = 270000 from rfl, show (exchange skew).he.x0 = 400 from rfl, show (exchange skew).gme = 1.25e-7 from rfl, hsq] at z
  norm_num at z

theorem or_iff_or_right' (M N R : Prop) : (M ∨ R ↔ N ∨ R) ↔ R ∨ (M ↔ N) := by tauto

theorem max_level {k : Int} {H A B S : Prop} (hk : k ≤ 4) :
    max k (level H A S) = max k (level H B S) ↔ H ∨ 3 ≤ k ∨ (A ↔ B) := by
  classical
  unfold level
  by_cases H <;> by_cases A <;> by_cases B <;> by_cases S <;> simp_all <;> omega

/-- **C23** (warning half, exactly) The marker is the same from both ends exactly if it is 3 or more for another reason, or both horizon
distances or none exceed three times the smaller smooth-earth one. -/
theorem C23_kwx_exact {p q q' : PropSt ℝ} {d : ℝ} (hm : p.mdp ≠ 0) (p0 : 0 < p.he.x0) (p1 : 0 < p.he.x1) (h0 : 0 ≤ p.kwx) (h4 : p.kwx ≤ 4)
    (h : lrprop d p = .ok q) (h' : lrprop d (exchange p) = .ok q') :
    q'.kwx = q.kwx ↔ HardViolation p q.dist ∨ 3 ≤ p.kwx ∨
      (0.2 < |p.the.x0| ∨ p.dl.x0 < 0.1 * smoothHorizon p.he.x0 p.gme) ∨ (0.2 < |p.the.x1| ∨ p.dl.x1 < 0.1 * smoothHorizon p.he.x1 p.gme) ∨
      (0 < q.dist ∧ q.dist < |p.he.x0 - p.he.x1| / 0.2) ∨
      (3 * min (smoothHorizon p.he.x0 p.gme) (smoothHorizon p.he.x1 p.gme) < p.dl.x0 ↔
        3 * min (smoothHorizon p.he.x0 p.gme) (smoothHorizon p.he.x1 p.gme) < p.dl.x1) := by
  obtain ⟨q'', h'', -, -, -, -, -, -, -, hd⟩ := C23_reciprocal hm p0 p1 h
  obtain rfl : q'' = q' := ok_inj.1 (h''.symm.trans h')
  have e := C17_marker_exact hm h0 h4 h
  have e' := C17_marker_exact (p := exchange p) hm h0 h4 h'
  have H : HardViolation (exchange p) q.dist ↔ HardViolation p q.dist := by
    unfold HardViolation
    rw [show (exchange p).wn = p.wn from rfl, show (exchange p).hg.x0 = p.hg.x1 from rfl, show (exchange p).hg.x1 = p.hg.x0 from rfl,
      show (exchange p).ens = p.ens from rfl, show (exchange p).gme = p.gme from rfl, show (exchange p).zgnd = p.zgnd from rfl]
    constructor <;> (rintro (h | h | h | h | h | h | h) <;> simp only [h, true_or, or_true])
  have S : SoftViolation (exchange p) q.dist ↔ SoftViolation p q.dist := by
    unfold SoftViolation
    rw [show (exchange p).wn = p.wn from rfl, show (exchange p).hg.x0 = p.hg.x1 from rfl, show (exchange p).hg.x1 = p.hg.x0 from rfl]
    constructor <;> (rintro (h | h | h | h | h | h | h) <;> simp only [h, true_or, or_true])
  rw [hd, propext H, propext S, show (exchange p).kwx = p.kwx from rfl] at e'
  rw [e, e', max_level h4]
  refine or_congr Iff.rfl (or_congr Iff.rfl ?_)
  unfold HorizonViolation
  rw [show (exchange p).the.x0 = p.the.x1 from rfl, show (exchange p).the.x1 = p.the.x0 from rfl, show (exchange p).dl.x0 = p.dl.x1 from rfl,
    show (exchange p).dl.x1 = p.dl.x0 from rfl, show (exchange p).he.x0 = p.he.x1 from rfl, show (exchange p).he.x1 = p.he.x0 from rfl,
    show (exchange p).gme = p.gme from rfl, abs_sub_comm p.he.x1]
  have m : ∀ a b x : ℝ, 3 * min a b < x ↔ 3 * a < x ∨ 3 * b < x := fun a b x => by
    rw [mul_min_of_nonneg _ _ (by norm_num), min_lt_iff]
  rw [m, m]
  generalize (0.2 < |p.the.x0|) = a0
  generalize (0.2 < |p.the.x1|) = a1
  generalize (p.dl.x0 < 0.1 * smoothHorizon p.he.x0 p.gme) = b0
  generalize (p.dl.x1 < 0.1 * smoothHorizon p.he.x1 p.gme) = b1
  generalize (0 < q.dist ∧ q.dist < |p.he.x0 - p.he.x1| / 0.2) = c
  generalize (3 * smoothHorizon p.he.x0 p.gme < p.dl.x0) = m00
  generalize (3 * smoothHorizon p.he.x1 p.gme < p.dl.x0) = m10
  generalize (3 * smoothHorizon p.he.x0 p.gme < p.dl.x1) = m01
  generalize (3 * smoothHorizon p.he.x1 p.gme < p.dl.x1) = m11
  clear * -
  have e1 : ((a1 ∨ b1 ∨ m10) ∨ (a0 ∨ b0 ∨ m00) ∨ c) = ((m00 ∨ m10) ∨ ((a0 ∨ b0) ∨ (a1 ∨ b1) ∨ c)) := by
    refine propext ⟨?_, ?_⟩
    · rintro ((h | h | h) | (h | h | h) | h) <;> simp only [h, true_or, or_true]
    · rintro ((h | h) | (h | h) | (h | h) | h) <;> simp only [h, true_or, or_true]
  have e2 : ((a0 ∨ b0 ∨ m01) ∨ (a1 ∨ b1 ∨ m11) ∨ c) = ((m01 ∨ m11) ∨ ((a0 ∨ b0) ∨ (a1 ∨ b1) ∨ c)) := by
    refine propext ⟨?_, ?_⟩
    · rintro ((h | h | h) | (h | h | h) | h) <;> simp only [h, true_or, or_true]
    · rintro ((h | h) | (h | h) | (h | h) | h) <;> simp only [h, true_or, or_true]
  rw [e1, e2, or_iff_or_right', or_assoc (a := a0 ∨ b0), or_assoc (a := a1 ∨ b1)]

/-- None of the reasons applies to the skew link, so its markers differ. -/
example : ∃ q q', lrprop 300000 skew = .ok q ∧ lrprop 300000 (exchange skew) = .ok q' ∧ q.kwx = 0 ∧ q'.kwx ≠ q.kwx := by
  obtain ⟨q, hq, hk⟩ := skew_kwx
  have p0 : 0 < skew.he.x0 := show (0 : ℝ) < 400 by norm_num
  obtain ⟨q', hq', _⟩ := C23_reciprocal (p := skew) (by decide) p0 p0 hq
  obtain ⟨-, t0, t1, td, -⟩ := C17_kwx_zero_partial (p := skew) (by decide) (by decide) hq hk
  refine ⟨q, q', hq, hq', hk, fun e => ?_⟩
  rcases (C23_kwx_exact (p := skew) (by decide) p0 p0 (by decide) (by decide) hq hq').1 e with h | h | h | h | h | h
  · rw [C17_hard_limit (by decide) hq h] at hk; exact absurd hk (by decide)
  · exact absurd h (by decide)
  · exact h.elim (not_lt.2 t0.the) (not_lt.2 t0.dlmin)
  · exact h.elim (not_lt.2 t1.the) (not_lt.2 t1.dlmin)
  · exact absurd h.2 (not_lt.2 (td h.1).slope)
  · have hsq : smoothHorizon 400 1.25e-7 = 80000 := by
      unfold smoothHorizon
      rw [show (2 * 400 / 1.25e-7 : ℝ) = 80000 ^ 2 by norm_num, Real.sqrt_sq (by norm_num)]
    rw [show skew.dl.x0 = 270000 from rfl, show skew.dl.x1 = 80000 from rfl, show skew.he.x0 = 400 from rfl, show skew.he.x1 = 400 from rfl,
      show skew.gme = 1.25e-7 from rfl, hsq] at h
    norm_num at h

/-- Reciprocity on a real, asymmetric link. -/
example : ∃ q q', lrprop 300000 skew = .ok q ∧ lrprop 300000 (exchange skew) = .ok q' ∧ q'.aref = q.aref ∧
    (exchange skew).dl.x0 ≠ skew.dl.x0 := by
  obtain ⟨q, hq, _⟩ := skew_kwx
  have p0 : 0 < skew.he.x0 := show (0 : ℝ) < 400 by norm_num
  obtain ⟨q', hq', e, _⟩ := C23_reciprocal (p := skew) (by decide) p0 p0 hq
  exact ⟨q, q', hq, hq', e, show (80000 : ℝ) ≠ 270000 by norm_num⟩

end Itm.Props

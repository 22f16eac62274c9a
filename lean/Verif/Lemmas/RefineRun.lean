import Verif.Lemmas.RefineScat

/-! A whole call of `lrprop` in arithmetics of growing precision. -/

namespace Itm
open Itm.Spec Filter Asymptotics Topology

variable {ι : Type} {l : Filter ι} {α : ι → Type} [∀ i, PyNum (α i)] {ε : ι → ℝ} {F : Refining l α ε}

theorem link_d3 (p : PropSt ℝ) : d3R (inp p) (horR (inp p)) = (linkOf p).d3 := by
  unfold d3R xaeR horR Link.d3 Link.xae Link.dlsa Link.dla smoothHorizon third linkOf
  norm_num
  rw [add_comm (13787 / 10000 * _)]
  rfl

theorem link_d4 (p : PropSt ℝ) : d4R (inp p) (horR (inp p)) = (linkOf p).d4 := by
  unfold d4R
  rw [link_d3]
  unfold xaeR Link.d4 Link.xae third linkOf
  norm_num
  rfl

theorem link_knife (p : PropSt ℝ) (dl d : ℝ) : knifeV (inp p) (horR (inp p)) dl d = (linkOf p).knifeArg dl d := rfl

theorem link_terms {p : PropSt ℝ} (a : Adm (inp p)) (c : (linkOf p).DiffClear) : TermClear (inp p) := by
  have hz : 1.0 / (inp p).zgnd.abs = (linkOf p).zInv := by
    unfold Link.zInv linkOf
    rw [Props.norm_toC, show (1.0 : ℝ) = 1 by norm_num]
    unfold Cx.abs Cx.normSq
    rw [rsqrt, ← pow_two, ← pow_two]
    rfl
  have ht : (third : ℝ) = 1 / 3 := by unfold third; norm_num
  have hA : ∀ {d h : ℝ}, 0 < d → 0 < h → termA d h = d / (2 * h / d) := by
    intro d h pd ph
    unfold termA
    rw [show (0.5 : ℝ) = 1 / 2 by norm_num]
    field_simp
  have hk : ∀ {w q d h : ℝ}, 0 < d → 0 < h → termPk w q d h = terminalK w q d h := by
    intro w q d h pd ph
    unfold termPk termWa terminalK
    rw [hA pd ph, ht, show d / (2 * h / d) = d ^ 2 / (2 * h) by field_simp]
  have ha : ∀ {w q d h : ℝ}, 0 < d → 0 < h → termQ w q d h = terminalArg w q d h := by
    intro w q d h pd ph
    unfold termQ termPk termWa terminalArg roundedArg
    rw [hA pd ph, ht, show (151.0 : ℝ) = 151 by norm_num, add_zero, mul_div_assoc]
    congr 1
    field_simp
  refine ⟨?_, ?_⟩
  · rw [hz, ha a.dl0 a.he0, hk a.dl0 a.he0]; exact c.t0
  · rw [hz, ha a.dl1 a.he1, hk a.dl1 a.he1]; exact c.t1

theorem link_edges {p : PropSt ℝ} (c : (linkOf p).DiffClear) : EdgeClear (inp p) (horR (inp p)) := by
  refine ⟨?_, ?_, ?_, ?_⟩
  · rw [link_d3, link_knife]; exact c.e30
  · rw [link_d3, link_knife]; exact c.e31
  · rw [link_d4, link_knife]; exact c.e40
  · rw [link_d4, link_knife]; exact c.e41

theorem Spec.Refining.Inputs.apx {P : ∀ i, PropSt (α i)} {p : PropSt ℝ} (h : F.Inputs P p) : InApx F (fun i => inp (P i)) (inp p) :=
  ⟨h.hg0, h.hg1, h.he0, h.he1, h.dl0, h.dl1, h.the0, h.the1, h.wn, h.dh, h.ens, h.gme, h.zre, h.zim⟩

/-- Approximation of the reference attenuation among the lazily computed keys. -/
def ArefApx (F : Refining l α ε) (C : ∀ i, LrCache (α i)) (c : LrCache ℝ) : Prop :=
  ∃ A a, (∀ᶠ i in l, (C i).aref = some (A i)) ∧ c.aref = some a ∧ F.Approx A a

theorem refine_run {p : PropSt ℝ} {s : Setup ℝ} (hs : setupC p.mdp (inp p) = .ok s) {I : ∀ i, LrIn (α i)} (hi : InApx F I (inp p)) (a : Adm (inp p))
    (pdh : 0 < p.dh) {S : ∀ i, Setup (α i)} (hS : SetApx F S s) {D : ∀ i, α i} {d : ℝ} (hD : F.Approx D d) (pd : 0 < d) (hne : d ≠ (linkOf p).dlsa)
    (c1 : d < (linkOf p).dlsa → (linkOf p).SightClear) (c2 : (linkOf p).dlsa < d → (linkOf p).ScatterClear)
    {C : ∀ i, LrCache (α i)} {k : LrCache ℝ} (w1 : ∀ i, (C i).wlos = false) (w2 : ∀ i, (C i).wscat = false) (w3 : ∀ i, (C i).ascat1 = 0.0)
    (v1 : k.wlos = false) (v2 : k.wscat = false) (v3 : k.ascat1 = 0.0) :
    Follows l (ArefApx F) (fun i => runC (I i) (S i).h (S i).l (D i) (C i)) (runC (inp p) s.h s.l d k) := by
  obtain ⟨_, ⟨e1, e2, _⟩, _⟩ := Props.line_spec hs
  have hne' : d ≠ s.h.dlsa := by rw [e1]; exact hne
  have lt := hD.lt_iff hS.h.dlsa hne'
  have le := hS.h.dlsa.le_iff hD hne'.symm
  have p0 := (Follows.zero (F := F)).lt_iff hD pd.ne
  have n0 := hD.le_iff (Follows.zero (F := F)) pd.ne'
  rcases lt_or_gt_of_ne hne with q | q
  · have q' : d < s.h.dlsa := by rw [e1]; exact q
    have key : Follows l (ArefApx F) (fun i => (do
        let k ← losC (I i) (S i).h (S i).l
        let g ← npLog (D i)
        pure { C i with los := some k, wlos := true, aref := some (pyMax (k.ael + k.ak1 * D i + k.ak2 * g) 0.0) } : Py (LrCache (α i)))) (do
        let j ← losC (inp p) s.h s.l
        let g ← npLog d
        pure { k with los := some j, wlos := true, aref := some (pyMax (j.ael + j.ak1 * d + j.ak2 * g) 0.0) }) := by
      refine Follows.bind (refine_los hs hi a pdh hS (c1 q)) (fun K j _ hK => ?_)
      refine Follows.bind (Follows.log hD) (fun G g _ hG => ?_)
      refine Follows.pure ⟨_, _, Eventually.of_forall fun i => rfl, rfl, ?_⟩
      exact ((hK.ael.add (hK.ak1.mul hD)).add (hK.ak2.mul hG)).pyMax (Refining.Approx.lit _ _ _)
    have ex : ∀ {β : Type} [PyNum β] (i : LrIn β) (h : Horizon β) (y : DiffLine β) (d : β) (c : LrCache β), d < h.dlsa → ¬ (d ≤ 0.0 ∨ h.dlsa ≤ d) →
        (0.0 : β) < d → c.wlos = false → runC i h y d c = (do
        let k ← losC i h y
        let g ← npLog d
        pure { c with los := some k, wlos := true, aref := some (pyMax (k.ael + k.ak1 * d + k.ak2 * g) 0.0) }) := by
      intro β _ i h y d c h1 h2 h3 h4
      unfold runC losStage scatStage clampStage losAref
      rw [if_pos h1, if_pos h4]
      cases losC i h y with
      | error e => rfl
      | ok k =>
        simp only [ok_bind, if_pos h3]
        cases npLog d with
        | error e => rfl
        | ok g => simp only [ok_bind, pure_ok, if_neg h2, need]
    rw [ex _ _ _ _ _ q' (by rw [zero_lit]; push Not; exact ⟨pd, q'⟩) (by rw [zero_lit]; exact pd) v1]
    refine key.congr ?_
    filter_upwards [lt, le, p0, n0] with i k1 k2 k3 k4
    rw [ex _ _ _ _ _ (k1.2 q') (fun w => w.elim (fun w => absurd (k4.1 w) (not_le.2 pd)) (fun w => absurd (k2.1 w) (not_le.2 q'))) (k3.2 pd) (w1 i)]
  · have q' : s.h.dlsa < d := by rw [e1]; exact q
    have key : Follows l (ArefApx F) (fun i => (do
        let r ← scatC (I i) (S i).h (S i).l (C i).ascat1
        pure { C i with ascat1 := r.1, sprep := some r.2.1, scat := some r.2.2, wscat := true, aref := some (pyMax (farAref (S i).l r.2.2 (D i)) 0.0) } : Py (LrCache (α i)))) (do
        let r ← scatC (inp p) s.h s.l k.ascat1
        pure { k with ascat1 := r.1, sprep := some r.2.1, scat := some r.2.2, wscat := true, aref := some (pyMax (farAref s.l r.2.2 d) 0.0) }) := by
      have z : F.Approx (fun i => (C i).ascat1) 0 := by simp only [w3]; exact Follows.zero
      rw [show k.ascat1 = 0 by rw [v3, zero_lit]]
      refine Follows.bind (refine_scat hs hi a hS z (c2 q)) (fun R r hr hR => ?_)
      refine Follows.pure ⟨_, _, Eventually.of_forall fun i => rfl, rfl, ?_⟩
      refine (refine_far hS.l hR hD ?_).pyMax (Refining.Approx.lit _ _ _)
      intro e
      rw [← e]
      exact scat_meets hr
    have ex : ∀ {β : Type} [PyNum β] (i : LrIn β) (h : Horizon β) (y : DiffLine β) (d : β) (c : LrCache β), ¬ d < h.dlsa → h.dlsa ≤ d →
        c.wscat = false → runC i h y d c = (do
        let r ← scatC i h y c.ascat1
        pure { c with ascat1 := r.1, sprep := some r.2.1, scat := some r.2.2, wscat := true, aref := some (pyMax (farAref y r.2.2 d) 0.0) }) := by
      intro β _ i h y d c h1 h2 h3
      unfold runC losStage scatStage scatSetupStage clampStage
      rw [if_neg h1, pure_ok, ok_bind, if_pos (.inr h2), if_pos h3]
      cases scatC i h y c.ascat1 with
      | error e => rfl
      | ok k => rfl
    rw [ex _ _ _ _ _ (not_lt.2 q'.le) q'.le v2]
    refine key.congr ?_
    filter_upwards [lt, le] with i k1 k2
    rw [ex _ _ _ _ _ (fun w => absurd (k1.1 w) (not_lt.2 q'.le)) (k2.2 q'.le) (w2 i)]

end Itm

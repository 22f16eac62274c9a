import Verif.Props.C70
import Verif.Lemmas.FlatLink

/-! C71: scatter on links barred from it. -/

namespace Itm.Props
open Itm Itm.Spec

/-- **C71** (what holds) A first call on any link, at any distance, gives the attenuation of `Spec/Unbarred`: the published one, except
that scatter is used on every link.
Full statement: the published one. That is false, see `C71_flat_refuted`. -/
theorem C71_call_partial {p q : PropSt ℝ} {d : ℝ} (hm : p.mdp ≠ 0) (h : lrprop d p = .ok q) :
    q.aref = some ((linkOf p).unbarredReference q.dist) := lrprop_exact hm h

/-- **C71** (difference) On a barred link, beyond the horizon, the published attenuation is the diffraction line. The code's is the same
up to the crossing of the diffraction line with the scatter line of the barred link, and from there on differs by the difference of
their slopes. -/
theorem C71_difference {L : Link} (h5 : ¬ L.ScatterOk L.d5) {d : ℝ} (hd : d ≤ 0 ∨ L.dlsa ≤ d) :
    L.reference d = max 0 (L.diffLine d) ∧
    (L.a5' < 1000 → L.dx' < d → L.unbarredReference d = max 0 (L.diffLine d - (L.md - L.ms') * (d - L.dx'))) ∧
    (¬ (L.a5' < 1000 ∧ L.dx' < d) → L.unbarredReference d = L.reference d) := by
  have hn : ¬ (0 < d ∧ d < L.dlsa) := fun c => by rcases hd with h | h <;> linarith [c.1, c.2]
  have hr : L.reference d = max 0 (L.diffLine d) := by
    unfold Link.reference
    rw [if_neg hn, Link.beyond_barred h5]
  refine ⟨hr, fun a b => ?_, fun c => ?_⟩
  · unfold Link.unbarredReference Link.unbarred
    rw [if_neg hn, if_pos ⟨a, b⟩]
    congr 1
    unfold Link.diffLine
    ring
  · unfold Link.unbarredReference Link.unbarred
    rw [if_neg hn, if_neg c, hr]

theorem exp_301 : 5.3 ≤ Real.exp (301 / 179.3) ∧ Real.exp (301 / 179.3) ≤ 5.4 := by
  have e : Real.exp (301 / 179.3) = Real.exp 1 * Real.exp (121.7 / 179.3) := by rw [← Real.exp_add]; norm_num
  have h1 := Real.exp_one_gt_d9
  have h2 := Real.exp_one_lt_d9
  have h3 : (1.96 : ℝ) ≤ Real.exp (121.7 / 179.3) := by
    have := Real.sum_le_exp_of_nonneg (x := 121.7 / 179.3) (by norm_num) 5
    simp only [Finset.sum_range_succ, Finset.sum_range_zero, Nat.factorial] at this
    norm_num at this ⊢
    linarith
  have h4 : Real.exp (121.7 / 179.3) ≤ 1.98 := by
    have := Real.exp_bound' (x := 121.7 / 179.3) (by norm_num) (by norm_num) (n := 5) (by norm_num)
    simp only [Finset.sum_range_succ, Finset.sum_range_zero, Nat.factorial] at this
    norm_num at this ⊢
    linarith
  rw [e]
  constructor
  · calc (5.3 : ℝ) ≤ 2.7182818283 * 1.96 := by norm_num
      _ ≤ _ := by gcongr
  · calc _ ≤ 2.7182818286 * (1.98 : ℝ) := by gcongr
      _ ≤ 5.4 := by norm_num

theorem flat_shipped : Flat20 (shippedLink 0) := by
  obtain ⟨x1, x2⟩ := exp_301
  have g : 1.17e-7 ≤ curvature 301 ∧ curvature 301 ≤ 1.185e-7 := by
    unfold curvature
    generalize Real.exp (301 / 179.3) = e at *
    constructor <;> norm_num at * <;> linarith
  have g0 : 0 < curvature 301 := by linarith [g.1]
  obtain ⟨a1, a2⟩ := qlraHe_smooth 2 (hg := 3.3) (by norm_num)
  obtain ⟨b1, b2⟩ := qlraHe_smooth 2 (hg := 1.3) (by norm_num)
  rw [qlraHe_real] at a1 a2 b1 b2
  have z : ‖(lossless 20 false : ℂ)‖ = √14 := by
    unfold lossless
    rw [if_neg (by simp), Complex.norm_real, Real.norm_eq_abs, abs_of_nonneg (Real.sqrt_nonneg _)]
  have z1 : (3.7 : ℝ) ≤ √14 := Real.le_sqrt_of_sq_le (by norm_num)
  have z2 : √14 ≤ 3.75 := by rw [Real.sqrt_le_left (by norm_num)]; norm_num
  have rh : ∀ κ y : ℝ, roughHorizon κ 0 y = √(2 * y / κ) := by
    intro κ y; unfold roughHorizon smoothReach; simp
  have ra : ∀ y : ℝ, 0 < y → roughAngle (curvature 301) 0 y = -(curvature 301 * √(2 * y / curvature 301)) := by
    intro y hy
    unfold roughAngle smoothReach
    have hs : 0 < √(2 * y / curvature 301) := Real.sqrt_pos.2 (by positivity)
    have e2 := Real.sq_sqrt (show 0 ≤ 2 * y / curvature 301 by positivity)
    have e3 : curvature 301 * √(2 * y / curvature 301) * √(2 * y / curvature 301) = 2 * y := by
      rw [mul_assoc, ← sq, e2]; field_simp
    rw [div_eq_iff hs.ne', neg_mul, e3]
    ring
  have p0 : 0 < sitedHeight 2 3.3 0 := by norm_num at a1; linarith
  have p1 : 0 < sitedHeight 2 1.3 0 := by norm_num at b1; linarith
  refine ⟨⟨p0, p1, g0, ?_, ?_, rfl, rh _ _, rh _ _, ?_, ?_⟩, ?_, g.1, g.2, a1, a2.trans (by norm_num), b1, b2.trans (by norm_num), ?_, ?_, rfl⟩
  · show (0:ℝ) < waveNumber 20
    unfold waveNumber; norm_num
  · show 0 < ‖(lossless 20 false : ℂ)‖
    rw [z]; positivity
  · show roughAngle (curvature 301) 0 (sitedHeight 2 3.3 0) = -(curvature 301 * roughHorizon (curvature 301) 0 (sitedHeight 2 3.3 0))
    rw [rh, ra _ p0]
  · show roughAngle (curvature 301) 0 (sitedHeight 2 1.3 0) = -(curvature 301 * roughHorizon (curvature 301) 0 (sitedHeight 2 1.3 0))
    rw [rh, ra _ p1]
  · show waveNumber 20 = _
    rfl
  · show _ ≤ ‖(lossless 20 false : ℂ)‖
    rw [z]; exact z1
  · show ‖(lossless 20 false : ℂ)‖ ≤ _
    rw [z]; exact z2

/-- At 500 km over flat ground the code's attenuation is at least 20 dB too low. -/
theorem flat_gap : (shippedLink 0).unbarredReference 500000 + 20 ≤ (shippedLink 0).reference 500000 := by
  have h := flat_shipped
  have hd : (shippedLink 0).dlsa ≤ 500000 := (shipped_sight_lt _ _ _).le.trans (by norm_num)
  have h5 : ¬ (shippedLink 0).ScatterOk (shippedLink 0).d5 := h.barred (by norm_num) (by norm_num)
  have hl := h.line_ge
  have hg := h.gap
  rw [(C71_difference h5 (.inr hd)).1]
  unfold Link.unbarredReference
  rw [if_neg (fun c => by linarith [c.2]), max_eq_right (a := 0) (b := (shippedLink 0).diffLine 500000) (by linarith)]
  rcases max_choice 0 ((shippedLink 0).unbarred 500000) with c | c <;> rw [c] <;> linarith

/-- A lower attenuation lowers the loss: by a tenth at least, and fully where the loss is not below that of free space. -/
theorem lossWith_gap (L : Link) (k m : ℤ) (noLoc noSit : Bool) (d zt zl zc : ℝ) {a a' : ℝ} (h : a ≤ a') :
    L.lossWith k m noLoc noSit d a zt zl zc + (a' - a) / 10 ≤ L.lossWith k m noLoc noSit d a' zt zl zc ∧
    (8.685890 * Real.log (2 * L.wn * d) ≤ L.lossWith k m noLoc noSit d a zt zl zc →
      L.lossWith k m noLoc noSit d a zt zl zc + (a' - a) = L.lossWith k m noLoc noSit d a' zt zl zc) := by
  unfold Link.lossWith
  have e : ∀ x, quantile k m noLoc noSit d L.dh L.he₀ L.he₁ L.wn x zt zl zc =
    softR (x - climCurve k 0 (effectiveDist d L.he₀ L.he₁ L.wn) - deviation k m noLoc noSit d L.dh (effectiveDist d L.he₀ L.he₁ L.wn) L.wn zt zl zc) :=
    fun _ => rfl
  rw [e, e]
  generalize climCurve k 0 (effectiveDist d L.he₀ L.he₁ L.wn) = u
  generalize deviation k m noLoc noSit d L.dh (effectiveDist d L.he₀ L.he₁ L.wn) L.wn zt zl zc = v
  constructor
  · have := (softR_slopes (x := a - u - v) (y := a' - u - v) (by linarith)).1
    linarith
  · intro hp
    have hx : 0 ≤ a - u - v := by
      by_contra c
      push Not at c
      have h1 : softR (a - u - v) < 0 := by
        unfold softR
        rw [if_pos c]
        exact div_neg_of_neg_of_pos (mul_neg_of_neg_of_pos c (by linarith)) (by linarith)
      linarith
    have e1 : softR (a - u - v) = a - u - v := if_neg (not_lt.2 hx)
    have e2 : softR (a' - u - v) = a' - u - v := if_neg (by linarith)
    rw [e1, e2]; ring

/-- **C71** (refuted) Over flat terrain (interdecile range below half a metre) the shipped area program always writes its file, and for
500 km it predicts with a reference attenuation at least 20 dB below the published one. Its losses there are at least 2 dB too low, and
at least 20 dB where they are not below the free-space loss. -/
theorem C71_flat_refuted (fmt : ℝ → List Char) (fmtI : Int → List Char) (p : PropSt ℝ) {cells : List ℝ}
    (hn : interdecileRange cells = .ok 0) :
    (shippedLink 0).unbarredReference 500000 + 20 ≤ (shippedLink 0).reference 500000 ∧
    ∃ (text : List Char) (rows : List (AreaRow ℝ)) (zt zl : ℝ), areaProgram fmt fmtI p cells = .ok text ∧ DeviateOf 50 zt ∧ DeviateOf 50 zl ∧
      readCsv text = ["distance_km".toList, "confidence_level_%".toList, "propagation_loss_dB".toList] ::
        (rows.map fun row => [fmt row.distance_km, fmtI row.confidence, fmt row.loss]) ∧
      (rows.drop 63).map (fun row => (row.distance_km, row.confidence)) = [(500, 50), (500, 90), (500, 10)] ∧
      ∀ row ∈ rows.drop 63, ∃ zc, DeviateOf row.confidence zc ∧
        row.loss = (shippedLink 0).lossWith 5 3 false false 500000 ((shippedLink 0).unbarredReference 500000) zt zl zc ∧
        row.loss + 2 ≤ (shippedLink 0).loss 5 3 false false 500000 zt zl zc ∧
        (8.685890 * Real.log (2 * (shippedLink 0).wn * 500000) ≤ row.loss →
          row.loss + 20 ≤ (shippedLink 0).loss 5 3 false false 500000 zt zl zc) := by
  have hgap := flat_gap
  refine ⟨hgap, ?_⟩
  have hF := flat_shipped
  obtain ⟨s, q, hs, hq, W, -, H⟩ := C66_area (p := areaUser 0 p) (g := gridDefault) 50 50 areaQc ⟨2, 2⟩
    (by show (20:ℝ) ≤ 20.0 ∧ (20.0:ℝ) ≤ 20000; norm_num) (by show (1:ℝ) ≤ 3.3 ∧ (3.3:ℝ) ≤ 3000; norm_num)
    (by show (1:ℝ) ≤ 1.3 ∧ (1.3:ℝ) ≤ 3000; norm_num)
    (by show (0:ℝ) ≤ ((0 : Int) : ℝ) ∧ ((0 : Int) : ℝ) ≤ 700; norm_num) gridDefault_step
  have hL : linkOf q = shippedLink 0 := by
    rw [(area_link (by show (0:ℝ) < 3.3; norm_num) (by show (0:ℝ) < 1.3; norm_num) (by show (0:ℝ) ≤ ((0 : Int) : ℝ); norm_num) hs hq).1]
    have e20 : (20.0 : ℝ) = 20 := by norm_num
    unfold shippedLink areaUser
    simp only [rofInt, e20, Int.cast_zero]
    rfl
  rw [hL] at H
  obtain ⟨rows, r, hr⟩ := H hF.not_clash hF.not_parallel
  have hr : itmlogicArea gridDefault ⟨2, 2⟩ (areaUser 0 p) = .ok (rows, r) := hr
  have hgrid := (C46_shipped hr).2
  obtain ⟨text, et, hc⟩ := C62_area fmt fmtI (rows := rows) (by
    rintro rfl
    have := (C46_shipped hr).1
    simp at this)
  obtain ⟨zt, zl, a, b, c⟩ := shipped_rows le_rfl hr
  have hprog : areaProgram fmt fmtI p cells = .ok text := by
    unfold areaProgram
    rw [hn, ok_bind, hr, ok_bind]
    exact et
  have hdc : (rows.drop 63).map (fun row => (row.distance_km, row.confidence)) = [(500, 50), (500, 90), (500, 10)] := by
    rw [List.map_drop, hgrid]
    rfl
  refine ⟨text, rows, zt, zl, hprog, a, b, hc, hdc, fun row hrow => ?_⟩
  have hd : row.distance_km = 500 := by
    have := List.mem_map_of_mem (f := fun row : AreaRow ℝ => (row.distance_km, row.confidence)) hrow
    rw [hdc] at this
    simp only [List.mem_cons, List.not_mem_nil, or_false, Prod.mk.injEq] at this
    rcases this with h | h | h <;> exact h.1
  have e5 : 1000 * row.distance_km = 500000 := by rw [hd]; norm_num
  obtain ⟨zc, d, e⟩ := c row (List.mem_of_mem_drop hrow)
  rw [Int.cast_zero] at e
  have hsight : ¬ (500000 : ℝ) < (shippedLink 0).dlsa := by
    have : (shippedLink 0).dlsa < 30000 := shipped_sight_lt _ _ _
    linarith
  rw [e5, if_neg hsight] at e
  obtain ⟨k1, k2⟩ := lossWith_gap (shippedLink 0) 5 3 false false 500000 zt zl zc
    (show (shippedLink 0).unbarredReference 500000 ≤ (shippedLink 0).reference 500000 by linarith)
  rw [Link.lossWith_reference, ← e] at k1 k2
  exact ⟨zc, d, e, by linarith, fun hp => by have := k2 hp; linarith⟩

/-- A level raster. -/
example (fmt : ℝ → List Char) (fmtI : Int → List Char) (p : PropSt ℝ) : ∃ text, areaProgram fmt fmtI p [120, 120, 120, 120] = .ok text := by
  obtain ⟨n, a, b, hn, -, -, -, -⟩ := C51_deciles (x := [120, 120, 120, 120]) (by simp)
  obtain ⟨n0, n1⟩ := C51_range hn (lo := 120) (hi := 120) (by simp) (by simp)
  have e : n = 0 := by
    refine le_antisymm (n1.trans ?_) n0
    have : PyNum.roundInt ((120:ℝ) - 120) = 0 := by
      rw [sub_self, show (0:ℝ) = ((0:ℤ):ℝ) by norm_num]; exact round_int 0
    rw [this]
  rw [e] at hn
  obtain ⟨-, text, _, _, _, h, -⟩ := C71_flat_refuted fmt fmtI p hn
  exact ⟨text, h⟩

/-- The flat link is barred, and the code leaves the diffraction line before 500 km. -/
example : ¬ (shippedLink 0).ScatterOk (shippedLink 0).d5 ∧ (shippedLink 0).dlsa ≤ 500000 ∧ (shippedLink 0).a5' < 1000 :=
  ⟨flat_shipped.barred (by norm_num) (by norm_num), (shipped_sight_lt _ _ _).le.trans (by norm_num), flat_shipped.a5_bounds.2⟩

end Itm.Props

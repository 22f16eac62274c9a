import Verif.Model.Programs
import Verif.Lemmas.AreaExact
import Verif.Props.C45
import Verif.Props.C49
import Verif.Props.C62
import Verif.Props.C66
import Verif.Props.C68

/-! C70: what the area program writes. -/

namespace Itm.Props
open Itm Itm.Spec

/-- **C70** (every row of an area run) Whatever the two-leg grid: at a distance within line of sight the loss is the one for the
attenuation of the *first* distance of the grid, beyond the horizon the one for the attenuation of the distance itself. The
attenuation is the published one, except that no link is barred from scatter. -/
theorem C70_rows {qt ql : Int} {qc : List Int} {g : Grid ℝ} {kst : Pair Int} {p r : PropSt ℝ} {rows : List (AreaRow ℝ)}
    (hg0 : 0 < p.hg.x0) (hg1 : 0 < p.hg.x1) (hd : 0 ≤ p.dh) (h0 : 0 < g.d0) (h1 : g.d0 < g.d1) (hs1 : 0 < g.ds1)
    (h : itmlogicAreaAt qt ql qc g kst p = .ok (rows, r)) {L : Link}
    (hL : L = roughLink p.fmhz p.dh p.hg.x0 p.hg.x1 301 kst.x0 kst.x1 (lossless p.fmhz (decide (p.ipol ≠ 0)))) :
    ∃ zt zl, DeviateOf qt zt ∧ DeviateOf ql zl ∧ ∀ row ∈ rows,
      ∃ zc, DeviateOf row.confidence zc ∧ row.loss = L.lossWith 5 3 false false (1000 * row.distance_km)
        (L.unbarredReference (if 1000 * row.distance_km < L.dlsa then 1000 * g.d0 else 1000 * row.distance_km)) zt zl zc := by
  obtain ⟨zt, zl, zc, s, b, dt, ht, hl, hzc, hs, hq, hdt, h⟩ := itmlogicAreaAt_ok h
  obtain ⟨hb, hm, hk, hmd, hi⟩ := area_link hg0 hg1 hd hs hq
  rw [← hL] at hb
  refine ⟨zt, zl, ht, hl, ?_⟩
  have hz := zip_deviates hzc
  have hdev : ∀ y ∈ qc.zip zc, DeviateOf y.1 y.2 := by
    intro y hy
    obtain ⟨x, -, e, hx⟩ := forall₂_mem hz y hy
    rw [e]; exact hx
  obtain ⟨ed0, edt, eds⟩ : (areaPlan g).d0 = g.d0 ∧ dt = g.ds1 ∧ ((areaPlan g).ndc ≤ 0 ∨ 0 < (areaPlan g).ds2) := by
    obtain ⟨nd, -, ⟨-, e⟩ | ⟨c, e⟩⟩ := areaPlan_two h0 h1 hs1
    · rw [e] at hdt ⊢; exact ⟨rfl, (Option.some.inj hdt).symm, .inl le_rfl⟩
    · rw [e] at hdt ⊢; push Not at c; exact ⟨rfl, (Option.some.inj hdt).symm, .inr c.2⟩
  rw [ed0, edt] at h
  generalize qc.zip zc = Z at h hdev
  generalize (areaPlan g).nd.toNat = k at h
  generalize (areaPlan g).ndc = ndc at h eds
  generalize (areaPlan g).ds2 = ds2 at h eds
  cases k with
  | zero =>
    unfold areaLoop at h
    rw [pure_ok, ok_inj] at h
    obtain ⟨rfl, rfl⟩ := Prod.mk.inj h
    simp
  | succ k =>
    unfold areaLoop at h
    obtain ⟨q, hq, h⟩ := bind_eq_ok.1 h
    obtain ⟨fs, hfs, h⟩ := bind_eq_ok.1 h
    obtain ⟨⟨r1, q1⟩, h1, h⟩ := bind_eq_ok.1 h
    obtain ⟨⟨r2, q2⟩, h2, h⟩ := bind_eq_ok.1 h
    dsimp only at h
    rw [pure_ok, ok_inj] at h
    obtain ⟨rfl, rfl⟩ := Prod.mk.inj h
    obtain ⟨b', hb'⟩ : ∃ b' : PropSt ℝ, b' = { b with lvar := max 1 b.lvar } := ⟨_, rfl⟩
    rw [← hb'] at hq
    have hL' : linkOf b' = L := by rw [hb', ← hb]; rfl
    have hm' : 0 < b'.mdp := by rw [hb']; dsimp only; omega
    obtain ⟨S, hS, Iq, hw, -⟩ := first_inv hm' hq
    obtain ⟨_, ⟨el, _⟩, _⟩ := line_spec hS
    have hiq : CacheInv q := by
      refine cacheInv_lrFrame ?_ ?_ (lrprop_frame hq)
      · rw [hb']; exact hi.raise (n := max 1 b.lvar) (by omega)
      · rw [hb']; simp only; omega
    have hdq := lrprop_dist hq
    rw [if_pos hm'.le, if_pos hm'.le] at hdq
    have e1000 : ∀ x : ℝ, x * 1000.0 = 1000 * x := fun x => by norm_num; ring
    rw [e1000] at hdq hq
    rw [e1000, el] at hw
    have hkq : q.klim = some 5 ∧ q.mdvar = some 3 := by
      obtain ⟨_, _, _, _, _, _, _, rfl⟩ := lrprop_frame hq
      rw [hb']; exact ⟨hk, hmd⟩
    obtain ⟨⟨i1, k1, f1⟩, g1⟩ := areaInner_ok hiq h1
    have I1 : SInv b' S q1 := by
      obtain ⟨_, _, _, _, _, _, _, _, rfl⟩ := f1
      exact ⟨Iq.mdp, Iq.inp, Iq.hor, Iq.diff, Iq.line, Iq.cache⟩
    have hk1 : q1.klim.map fixKlim = some 5 := by
      have : q1.klim.map fixKlim = q.klim.map fixKlim := congrArg Prod.fst k1
      rw [this, hkq.1]; rfl
    have hm1 : q1.mdvar = some 3 := by
      obtain ⟨_, _, _, _, _, _, _, _, rfl⟩ := f1
      exact hkq.2
    have hf1 : q1.wlos = q.wlos ∧ q1.aref = q.aref := by
      obtain ⟨_, _, _, _, _, _, _, _, rfl⟩ := f1
      exact ⟨rfl, rfl⟩
    have hdt' : 0 < if (0:Int) + 1 = ndc then ds2 else g.ds1 := by
      split_ifs with c
      · exact eds.resolve_left (by omega)
      · exact hs1
    have hst : (linkOf b').dlsa ≤ 1000 * (g.d0 + if (0:Int) + 1 = ndc then ds2 else g.ds1) ∨
        q1.wlos = true ∧ q1.aref = some ((linkOf b').unbarredReference (1000 * g.d0)) := by
      by_cases c : 1000 * g.d0 < (linkOf b').dlsa
      · right
        exact ⟨by rw [hf1.1]; exact hw c, by
          rw [hf1.2]; exact first_exact hm' hq⟩
      · left; push Not at c; linarith
    have g2 := areaLoop_ok i1 I1.mdp.ge h2
    have hx := loop_exact (D₀ := 1000 * g.d0) hm' hS (le_max_left _ _) I1 i1 hk1 hm1 (by positivity) hdt'
      (eds.imp (fun h => by omega) id) hst h2
    intro row hrow
    rcases List.mem_append.1 hrow with hr | hr
    · obtain ⟨c, hc, hdist, -⟩ := forall₂_mem g1 row hr
      rw [hdist]
      have hg := inner_with hiq Iq.inp (by rw [hkq.1]; rfl) hkq.2 hdq.1 hfs
        (first_exact hm' hq) h1
      rw [List.forall₂_map_left_iff] at hg
      obtain ⟨c, hc, -, e2, e3⟩ := forall₂_mem hg row hr
      refine ⟨c.2, by rw [e2]; exact hdev c hc, ?_⟩
      rw [e3, hL', ite_self]
    · obtain ⟨x, hx, hd1, hd2⟩ := forall₂_mem (forall₂_and hx g2) row hr
      obtain ⟨-, -, -, -, -, -, -, hdist, -⟩ := hd2
      obtain ⟨-, e2, e3⟩ := hd1
      obtain ⟨d, -, hx⟩ := List.mem_flatMap.1 hx
      obtain ⟨y, hy, rfl⟩ := List.mem_map.1 hx
      refine ⟨y.2, by rw [e2]; exact hdev y hy, ?_⟩
      rw [e3, hL', hdist]
      rfl

/-! ### The shipped program -/

theorem curvature_301 : 1.1e-7 ≤ curvature 301 ∧ curvature 301 ≤ 1.213e-7 := by
  have := (curvature_range (n := 301) (by norm_num) (by norm_num)).1
  rw [effCurvature_real] at this
  refine ⟨this, ?_⟩
  have h : (4.875 : ℝ) ≤ Real.exp (301 / 179.3) := by
    have := Real.sum_le_exp_of_nonneg (x := 301 / 179.3) (by norm_num) 4
    simp only [Finset.sum_range_succ, Finset.sum_range_zero, Nat.factorial] at this
    norm_num at this ⊢
    linarith
  unfold curvature
  generalize Real.exp (301 / 179.3) = e at h
  norm_num at h ⊢
  linarith

theorem levelRun_sight : 20000 < (roughLink 1000 0 30 100 301 2 2 (lossless 1000 true)).dlsa := by
  have hκ := curvature_301
  have a1 := (qlraHe_bounds (k := 2) (hg := 100) (dh := 0) (by norm_num)).1
  rw [qlraHe_real] at a1
  show 20000 < smoothHorizon (sitedHeight 2 30 0) (curvature 301) + smoothHorizon (sitedHeight 2 100 0) (curvature 301)
  unfold smoothHorizon
  generalize sitedHeight 2 30 0 = x at *
  generalize sitedHeight 2 100 0 = y at *
  generalize curvature 301 = κ at *
  have h0 : 0 < κ := by linarith [hκ.1]
  have h1 : 20000 < √(2 * y / κ) := by
    apply Real.lt_sqrt_of_sq_lt
    rw [lt_div_iff₀ h0]
    nlinarith [hκ.2]
  linarith [Real.sqrt_nonneg (2 * x / κ)]

/-- An answered run with two distances in line of sight, the second of them at 20 km. -/
example : (∃ rows r, itmlogicAreaAt 50 50 areaQc gridDefault ⟨2, 2⟩ levelRun = .ok (rows, r)) ∧
    (roughLink 1000 0 30 100 301 2 2 (lossless 1000 true)).Regular (1000 * 20) ∧
    1000 * 20 < (roughLink 1000 0 30 100 301 2 2 (lossless 1000 true)).dlsa := by
  have h := levelRun_sight
  refine ⟨?_, .inl ⟨by norm_num, by norm_num; exact h⟩, by norm_num; exact h⟩
  obtain ⟨_, _, _, _, _, h⟩ := C66_smooth (p := levelRun) 50 50 areaQc ⟨2, 2⟩ (by norm_num [levelRun]) (by norm_num [levelRun]) (by norm_num [levelRun])
    rfl (by norm_num [levelRun]) (by norm_num [levelRun]) gridDefault_step
  exact h

theorem sited_le {hg dh : ℝ} (h : 0 < hg) : sitedHeight 2 hg dh ≤ hg + 10 := by
  have := qlraHe_bounds (k := 2) (hg := hg) (dh := dh) h
  rw [qlraHe_real] at this
  linarith [this.2]

/-- With the shipped antennas line of sight ends below 30 km, whatever the terrain. -/
theorem shipped_sight_lt (dh : ℝ) (f : ℝ) (z : ℂ) : (roughLink f dh 3.3 1.3 301 2 2 z).dlsa < 30000 := by
  have hκ := curvature_301.1
  have a0 := sited_le (hg := 3.3) (dh := dh) (by norm_num)
  have a1 := sited_le (hg := 1.3) (dh := dh) (by norm_num)
  show smoothHorizon (sitedHeight 2 3.3 dh) (curvature 301) + smoothHorizon (sitedHeight 2 1.3 dh) (curvature 301) < 30000
  unfold smoothHorizon
  generalize curvature 301 = κ at *
  generalize sitedHeight 2 3.3 dh = x at *
  generalize sitedHeight 2 1.3 dh = y at *
  have hκ0 : 0 < κ := by linarith
  have b0 : √(2 * x / κ) ≤ 15560 := by
    rw [Real.sqrt_le_left (by norm_num), div_le_iff₀ hκ0]
    norm_num at *
    linarith
  have b1 : √(2 * y / κ) ≤ 14340 := by
    rw [Real.sqrt_le_left (by norm_num), div_le_iff₀ hκ0]
    norm_num at *
    linarith
  linarith

theorem sited_ge {hg dh c e : ℝ} (h0 : 0 < hg) (h5 : hg < 5) (hdh : 10 ≤ dh) (hc : c ≤ 0.3141593 * hg - (0.3141593 * hg) ^ 3 / 6)
    (hc0 : 0 ≤ c) (he : e ≤ Real.exp (-(2 * hg / 10))) (he0 : 0 ≤ e) : hg + (1 + 9 * c) * e ≤ sitedHeight 2 hg dh := by
  unfold sitedHeight
  rw [if_neg (by norm_num), if_neg (by norm_num), if_pos h5, max_eq_right (by linarith)]
  have hs : c ≤ Real.sin (0.3141593 * hg) := hc.trans (Real.sin_ge_sub_cube (by positivity))
  have hx : e ≤ Real.exp (-min 20 (2 * hg / dh)) := by
    refine he.trans (Real.exp_le_exp.2 (neg_le_neg ((min_le_right _ _).trans ?_)))
    gcongr
  have : 0 ≤ 1 + 9 * Real.sin (0.3141593 * hg) := by linarith
  dsimp only
  gcongr

/-- and above 20 km over terrain of irregularity 10 m or more. -/
theorem shipped_sight_gt {dh : ℝ} (hd : 10 ≤ dh) (f : ℝ) (z : ℂ) : 20000 < (roughLink f dh 3.3 1.3 301 2 2 z).dlsa := by
  have hκ := curvature_301
  have e0 : (0.507 : ℝ) ≤ Real.exp (-(2 * 3.3 / 10)) := by
    have h := Real.add_one_le_exp (-0.055)
    have e : Real.exp (-(2 * 3.3 / 10)) = Real.exp (-0.055) ^ 12 := by
      rw [← Real.exp_nat_mul]; norm_num
    rw [e]
    calc (0.507 : ℝ) ≤ (-0.055 + 1) ^ 12 := by norm_num
      _ ≤ _ := pow_le_pow_left₀ (by norm_num) h 12
  have e1 : (0.74 : ℝ) ≤ Real.exp (-(2 * 1.3 / 10)) := by
    have h := Real.add_one_le_exp (-(2 * 1.3 / 10))
    norm_num at h ⊢
    linarith
  have a0 := sited_ge (hg := 3.3) (c := 0.85) (by norm_num) (by norm_num) hd (by norm_num) (by norm_num) e0 (by norm_num)
  have a1 := sited_ge (hg := 1.3) (c := 0.396) (by norm_num) (by norm_num) hd (by norm_num) (by norm_num) e1 (by norm_num)
  show 20000 < smoothHorizon (sitedHeight 2 3.3 dh) (curvature 301) + smoothHorizon (sitedHeight 2 1.3 dh) (curvature 301)
  unfold smoothHorizon
  generalize curvature 301 = κ at *
  generalize sitedHeight 2 3.3 dh = x at *
  generalize sitedHeight 2 1.3 dh = y at *
  have hκ0 : 0 < κ := by linarith
  have b0 : (11240 : ℝ) ≤ √(2 * x / κ) := by
    refine Real.le_sqrt_of_sq_le ?_
    rw [le_div_iff₀ hκ0]
    norm_num at *
    linarith
  have b1 : (8770 : ℝ) ≤ √(2 * y / κ) := by
    refine Real.le_sqrt_of_sq_le ?_
    rw [le_div_iff₀ hκ0]
    norm_num at *
    linarith
  linarith

theorem list_bounds (l : List ℝ) : ∃ lo hi, (∀ y ∈ l, lo ≤ y) ∧ ∀ y ∈ l, y ≤ hi := by
  induction l with
  | nil => exact ⟨0, 0, by simp, by simp⟩
  | cons a t ih =>
    obtain ⟨lo, hi, h1, h2⟩ := ih
    refine ⟨min a lo, max a hi, fun y hy => ?_, fun y hy => ?_⟩
    · rcases List.mem_cons.1 hy with rfl | hy
      · exact min_le_left _ _
      · exact (min_le_right _ _).trans (h1 y hy)
    · rcases List.mem_cons.1 hy with rfl | hy
      · exact le_max_left _ _
      · exact (h2 y hy).trans (le_max_right _ _)

/-- What the area program does: the irregularity is an interdecile range rounded to an integer, and the file holds the rows of the run. -/
theorem program_rows {fmt : ℝ → List Char} {fmtI : Int → List Char} {p : PropSt ℝ} {cells : List ℝ} {text : List Char}
    (h : areaProgram fmt fmtI p cells = .ok text) :
    ∃ n rows r, interdecileRange cells = .ok n ∧ 0 ≤ n ∧ itmlogicArea gridDefault ⟨2, 2⟩ (areaUser n p) = .ok (rows, r) ∧
      readCsv text = ["distance_km".toList, "confidence_level_%".toList, "propagation_loss_dB".toList] ::
        rows.map fun row => [fmt row.distance_km, fmtI row.confidence, fmt row.loss] := by
  unfold areaProgram at h
  obtain ⟨n, hn, h⟩ := bind_eq_ok.1 h
  obtain ⟨⟨rows, r⟩, hr, h⟩ := bind_eq_ok.1 h
  dsimp only at h
  refine ⟨n, rows, r, hn, ?_, hr, ?_⟩
  · obtain ⟨lo, hi, a, b⟩ := list_bounds cells
    exact (C51_range hn a b).1
  · have hne : rows ≠ [] := by
      rintro rfl
      have := (C46_shipped hr).1
      simp at this
    obtain ⟨text', e, hc⟩ := C62_area fmt fmtI hne
    rw [h, ok_inj] at e
    rw [e]; exact hc

/-- The link the area program predicts for, over terrain of irregularity `dh`. -/
noncomputable def shippedLink (dh : ℝ) : Link := roughLink 20 dh 3.3 1.3 301 2 2 (lossless 20 false)

/-- The rows of the area program. -/
theorem shipped_rows {n : Int} {p r : PropSt ℝ} {rows : List (AreaRow ℝ)} (hn : 0 ≤ n)
    (h : itmlogicArea gridDefault ⟨2, 2⟩ (areaUser n p) = .ok (rows, r)) :
    ∃ zt zl, DeviateOf 50 zt ∧ DeviateOf 50 zl ∧ ∀ row ∈ rows,
      ∃ zc, DeviateOf row.confidence zc ∧ row.loss = (shippedLink n).lossWith 5 3 false false (1000 * row.distance_km)
        ((shippedLink n).unbarredReference (if 1000 * row.distance_km < (shippedLink n).dlsa then 10000 else 1000 * row.distance_km)) zt zl zc := by
  have e20 : (20.0 : ℝ) = 20 := by norm_num
  obtain ⟨zt, zl, a, b, c⟩ := C70_rows (L := shippedLink n) (by show (0:ℝ) < 3.3; norm_num) (by show (0:ℝ) < 1.3; norm_num)
    (by show (0:ℝ) ≤ ((n : Int) : ℝ); exact_mod_cast hn) (by show (0:ℝ) < 10.0; norm_num) (by show (10.0:ℝ) < 150.0; norm_num)
    (by show (0:ℝ) < 10.0; norm_num) h (by
      unfold shippedLink areaUser
      simp only [rofInt, e20]
      rfl)
  refine ⟨zt, zl, a, b, fun row hr => ?_⟩
  obtain ⟨zc, d, e⟩ := c row hr
  refine ⟨zc, d, ?_⟩
  have e10 : 1000 * (gridDefault : Grid ℝ).d0 = 10000 := by show (1000:ℝ) * 10.0 = 10000; norm_num
  rw [e10] at e
  exact e

/-- **C70** (the file) What the area program writes over any terrain, read back: a header and the 66 lines of 22 distances from 10 to
500 km with three confidence levels each. The irregularity is the interdecile range of the terrain, rounded. The losses, except those
at 20 km, are those of the link with this irregularity for the attenuation at their own distance; this is the published attenuation,
except that no link is barred from scatter.
Full statement: also those at 20 km, and always the published attenuation; the first is false over terrain of irregularity 10 m or
more, see `C70_file_refuted`, the second in general, see C71. -/
theorem C70_file_partial {fmt : ℝ → List Char} {fmtI : Int → List Char} {p : PropSt ℝ} {cells : List ℝ} {text : List Char}
    (h : areaProgram fmt fmtI p cells = .ok text) :
    ∃ (n : Int) (lo hi : ℝ) (rows : List (AreaRow ℝ)), LowerDecile cells lo ∧ UpperDecile cells hi ∧ NearestInt (hi - lo) n ∧
      readCsv text = ["distance_km".toList, "confidence_level_%".toList, "propagation_loss_dB".toList] ::
        (rows.map fun row => [fmt row.distance_km, fmtI row.confidence, fmt row.loss]) ∧
      rows.map (fun row => (row.distance_km, row.confidence)) =
        (([10, 20, 30, 40, 50, 60, 70, 80, 90, 100, 110, 120, 130, 140, 150, 200, 250, 300, 350, 400, 450, 500] : List ℝ).flatMap
          fun d => ([50, 90, 10] : List Int).map fun c => (d, c)) ∧
      ∃ zt zl, DeviateOf 50 zt ∧ DeviateOf 50 zl ∧ ∀ row ∈ rows, row.distance_km ≠ 20 →
        ∃ zc, DeviateOf row.confidence zc ∧
          row.loss = (shippedLink n).lossWith 5 3 false false (1000 * row.distance_km)
            ((shippedLink n).unbarredReference (1000 * row.distance_km)) zt zl zc ∧
          ((shippedLink n).Regular (1000 * row.distance_km) →
            row.loss = (shippedLink n).loss 5 3 false false (1000 * row.distance_km) zt zl zc) := by
  obtain ⟨n, rows, r, hn, hn0, hr, hf⟩ := program_rows h
  have hne : cells ≠ [] := by
    rintro rfl
    rw [C51_empty] at hn; cases hn
  obtain ⟨n', lo, hi, e, d1, d2, -, d3⟩ := C51_deciles hne
  rw [hn, ok_inj] at e
  subst e
  have hg := (C46_shipped hr).2
  obtain ⟨zt, zl, a, b, c⟩ := shipped_rows hn0 hr
  refine ⟨n, lo, hi, rows, d1, d2, d3, hf, hg, zt, zl, a, b, fun row hrow h20 => ?_⟩
  obtain ⟨zc, d, e⟩ := c row hrow
  suffices h : row.loss = (shippedLink n).lossWith 5 3 false false (1000 * row.distance_km)
      ((shippedLink n).unbarredReference (1000 * row.distance_km)) zt zl zc from
    ⟨zc, d, h, fun hreg => by rw [h, Link.unbarredReference_eq hreg]; rfl⟩
  rw [e]
  have hm : (row.distance_km, row.confidence) ∈ rows.map (fun row => (row.distance_km, row.confidence)) := List.mem_map_of_mem hrow
  rw [hg] at hm
  have hcase : row.distance_km = 10 ∨ 30 ≤ row.distance_km := by
    obtain ⟨x, hx, hm⟩ := List.mem_flatMap.1 hm
    obtain ⟨y, -, hm⟩ := List.mem_map.1 hm
    have ex : x = row.distance_km := congrArg Prod.fst hm
    subst ex
    simp only [List.mem_cons, List.not_mem_nil, or_false] at hx
    rcases hx with h | h | h
    · exact .inl h
    · exact absurd h h20
    · right
      rcases h with h | h | h | h | h | h | h | h | h | h | h | h | h | h | h | h | h | h | h | h <;> rw [h] <;> norm_num
  have hlt : (shippedLink n).dlsa < 30000 := shipped_sight_lt _ _ _
  congr 2
  split_ifs with hs
  · rcases hcase with h | h
    · rw [h]; norm_num
    · linarith
  · rfl

theorem quantile_inj {k m : ℤ} {noLoc noSit : Bool} {d dh h₀ h₁ w a a' zt zl zc : ℝ} :
    quantile k m noLoc noSit d dh h₀ h₁ w a zt zl zc = quantile k m noLoc noSit d dh h₀ h₁ w a' zt zl zc ↔ a = a' := by
  refine ⟨fun h => ?_, fun h => by rw [h]⟩
  have h : softR (a - climCurve k 0 (effectiveDist d h₀ h₁ w) - deviation k m noLoc noSit d dh (effectiveDist d h₀ h₁ w) w zt zl zc) =
    softR (a' - climCurve k 0 (effectiveDist d h₀ h₁ w) - deviation k m noLoc noSit d dh (effectiveDist d h₀ h₁ w) w zt zl zc) := h
  rcases le_total a a' with c | c
  · have := (softR_slopes (sub_le_sub_right (sub_le_sub_right c _) _)).1.trans_eq (sub_eq_zero.2 h.symm)
    linarith
  · have := (softR_slopes (sub_le_sub_right (sub_le_sub_right c _) _)).1.trans_eq (sub_eq_zero.2 h)
    linarith

/-- **C70** (refuted) Over terrain of irregularity 10 m or more the losses the area program writes for 20 km are those for the
attenuation at 10 km: they are the published ones only if the two attenuations coincide. -/
theorem C70_file_refuted {fmt : ℝ → List Char} {fmtI : Int → List Char} {p : PropSt ℝ} {cells : List ℝ} {text : List Char}
    (h : areaProgram fmt fmtI p cells = .ok text) {n : Int} (hn : interdecileRange cells = .ok n) (h10 : 10 ≤ n) :
    ∃ (rows : List (AreaRow ℝ)) (zt zl : ℝ), DeviateOf 50 zt ∧ DeviateOf 50 zl ∧
      readCsv text = ["distance_km".toList, "confidence_level_%".toList, "propagation_loss_dB".toList] ::
        (rows.map fun row => [fmt row.distance_km, fmtI row.confidence, fmt row.loss]) ∧
      ((rows.drop 3).take 3).map (fun row => (row.distance_km, row.confidence)) = [(20, 50), (20, 90), (20, 10)] ∧
      ∀ row ∈ (rows.drop 3).take 3, ∃ zc, DeviateOf row.confidence zc ∧
        row.loss = (shippedLink n).lossWith 5 3 false false 20000 ((shippedLink n).reference 10000) zt zl zc ∧
        (row.loss = (shippedLink n).loss 5 3 false false 20000 zt zl zc ↔
          (shippedLink n).reference 10000 = (shippedLink n).reference 20000) := by
  obtain ⟨n', rows, r, hn', hn0, hr, hf⟩ := program_rows h
  rw [hn, ok_inj] at hn'
  subst hn'
  have hg := (C46_shipped hr).2
  obtain ⟨zt, zl, a, b, c⟩ := shipped_rows hn0 hr
  have hdc : ((rows.drop 3).take 3).map (fun row => (row.distance_km, row.confidence)) = [(20, 50), (20, 90), (20, 10)] := by
    rw [List.map_take, List.map_drop, hg]
    rfl
  have hgt : 20000 < (shippedLink n).dlsa := shipped_sight_gt (by exact_mod_cast h10) _ _
  refine ⟨rows, zt, zl, a, b, hf, hdc, fun row hrow => ?_⟩
  have hd : row.distance_km = 20 := by
    have := List.mem_map_of_mem (f := fun row : AreaRow ℝ => (row.distance_km, row.confidence)) hrow
    rw [hdc] at this
    simp only [List.mem_cons, List.not_mem_nil, or_false, Prod.mk.injEq] at this
    rcases this with h | h | h <;> exact h.1
  have e20 : 1000 * row.distance_km = 20000 := by rw [hd]; norm_num
  obtain ⟨zc, d, e⟩ := c row (List.mem_of_mem_drop (List.mem_of_mem_take hrow))
  rw [e20, if_pos hgt, Link.unbarredReference_eq (.inl ⟨by norm_num, by linarith⟩)] at e
  refine ⟨zc, d, e, ?_⟩
  rw [e, ← Link.lossWith_reference]
  unfold Link.lossWith
  rw [add_right_inj]
  exact quantile_inj

/-- **C70** (the program ends) Over any terrain whose heights, in a nonempty raster, differ by at most 700 m the program writes its file
or stops with a division by zero. -/
theorem C70_ends (fmt : ℝ → List Char) (fmtI : Int → List Char) (p : PropSt ℝ) {cells : List ℝ} (hne : cells ≠ []) {lo hi : ℝ}
    (hlo : ∀ y ∈ cells, lo ≤ y) (hhi : ∀ y ∈ cells, y ≤ hi) (h7 : hi - lo ≤ 700) :
    (∃ text, areaProgram fmt fmtI p cells = .ok text) ∨ areaProgram fmt fmtI p cells = .error .zeroDivision := by
  obtain ⟨n, a, b, hn, -, -, -, -⟩ := C51_deciles hne
  obtain ⟨n0, n1⟩ := C51_range hn hlo hhi
  have n7 : n ≤ 700 := by
    refine n1.trans ?_
    have := round_mono (h7.trans_eq (by norm_num : (700:ℝ) = ((700:ℤ):ℝ)))
    rwa [round_int] at this
  unfold areaProgram
  rw [hn, ok_bind]
  obtain ⟨_, _, _, _, _, h, -⟩ := C66_area (p := areaUser n p) (g := gridDefault) 50 50 areaQc ⟨2, 2⟩
    (by show (20:ℝ) ≤ 20.0 ∧ (20.0:ℝ) ≤ 20000; norm_num) (by show (1:ℝ) ≤ 3.3 ∧ (3.3:ℝ) ≤ 3000; norm_num)
    (by show (1:ℝ) ≤ 1.3 ∧ (1.3:ℝ) ≤ 3000; norm_num)
    (by show (0:ℝ) ≤ ((n : Int) : ℝ) ∧ ((n : Int) : ℝ) ≤ 700; exact ⟨by exact_mod_cast n0, by exact_mod_cast n7⟩) gridDefault_step
  rcases h with ⟨rows, r, h⟩ | h
  · left
    have h : itmlogicArea gridDefault ⟨2, 2⟩ (areaUser n p) = .ok (rows, r) := h
    rw [h, ok_bind]
    obtain ⟨text, e, -⟩ := C62_area fmt fmtI (rows := rows) (by
      rintro rfl
      have := (C46_shipped h).1
      simp at this)
    exact ⟨text, e⟩
  · right
    have h : itmlogicArea gridDefault ⟨2, 2⟩ (areaUser n p) = .error .zeroDivision := h
    rw [h]; rfl

example (fmt : ℝ → List Char) (fmtI : Int → List Char) (p : PropSt ℝ) :
    (∃ text, areaProgram fmt fmtI p [100, 190, 120, 160] = .ok text) ∨
      areaProgram fmt fmtI p [100, 190, 120, 160] = .error .zeroDivision :=
  C70_ends fmt fmtI p (lo := 100) (hi := 190) (by simp) (by simp; norm_num) (by simp; norm_num) (by norm_num)

end Itm.Props

import Verif.Spec.Usable
import Verif.Props.C66
import Verif.Lemmas.Pimter
import Verif.Props.C06

/-! C67: unusable input is never answered. -/

namespace Itm.Props
open Itm Itm.Spec

theorem adiffTerm_physical {wn qk dl he : ℝ} {r : ℝ × ℝ} (h : adiffTerm wn qk dl he = .ok r) (hw : 0 < wn) : 0 < he ∧ dl ≠ 0 := by
  unfold adiffTerm at h
  obtain ⟨a, ha, h⟩ := bind_eq_ok.1 h
  obtain ⟨wa, hwa, h⟩ := bind_eq_ok.1 h
  obtain ⟨pk, hpk, -⟩ := bind_eq_ok.1 h
  obtain ⟨h0, ea⟩ := pyDiv_eq_ok.1 ha
  obtain ⟨h1, h2, ew⟩ := pyPow_eq_ok.1 hwa
  obtain ⟨h3, -⟩ := pyDiv_eq_ok.1 hpk
  rw [npow_real] at ea
  have ha0 : a ≠ 0 := by
    rintro rfl
    rw [zero_mul, third_real, Real.zero_rpow (by norm_num)] at ew
    exact h3 ew
  have hap : 0 < a := by
    rcases lt_or_gt_of_ne ha0 with c | c
    · nlinarith
    · exact c
  constructor
  · by_contra c
    have : he < 0 := lt_of_le_of_ne (not_lt.1 c) h0
    have : a ≤ 0 := by rw [ea]; exact div_nonpos_of_nonneg_of_nonpos (by positivity) this.le
    linarith
  · rintro rfl
    norm_num at ea
    exact ha0 ea

/-- **C67** (reference attenuation) A first call of `lrprop` is answered only for a physical link. -/
theorem C67_lrprop {p q : PropSt ℝ} {d : ℝ} (hm : p.mdp ≠ 0) (h : lrprop d p = .ok q) : Physical p := by
  rw [lrprop_setup hm] at h
  obtain ⟨s, hs, -⟩ := bind_eq_ok.1 h
  unfold setupC at hs
  obtain ⟨hz, hhor, hs⟩ := bind_eq_ok.1 hs
  obtain ⟨c, hc, hs⟩ := bind_eq_ok.1 hs
  obtain ⟨l, hl, -⟩ := bind_eq_ok.1 hs
  -- horizons
  unfold horC lrHorizon at hhor
  obtain ⟨x0, hx0, hhor⟩ := bind_eq_ok.1 hhor
  obtain ⟨y0, hy0, hhor⟩ := bind_eq_ok.1 hhor
  obtain ⟨x1, hx1, hhor⟩ := bind_eq_ok.1 hhor
  obtain ⟨y1, hy1, hhor⟩ := bind_eq_ok.1 hhor
  rw [pure_ok, ok_inj] at hhor
  obtain ⟨hg, ex0⟩ := pyDiv_eq_ok.1 hx0
  obtain ⟨p0, ey0⟩ := mathSqrt_eq_ok.1 hy0
  obtain ⟨p1, ey1⟩ := mathSqrt_eq_ok.1 hy1
  have hsa : 0 ≤ hz.dlsa := by rw [← hhor]; show 0 ≤ y0 + y1; rw [ey0, ey1]; positivity
  -- line
  unfold lineC lrLineWith at hl
  obtain ⟨xae, hxae, -⟩ := bind_eq_ok.1 hl
  obtain ⟨w1, w2, -⟩ := pyPow_eq_ok.1 hxae
  rw [npow_real] at w1 w2
  have hgme : p.gme ≠ 0 := hg
  have hw : 0 < p.wn := by
    have hsq : 0 < p.gme ^ 2 := by positivity
    have : p.wn * p.gme ^ 2 ≠ 0 := fun e => w2 ⟨e, by rw [third_real]; norm_num⟩
    have h3 : 0 < p.wn * p.gme ^ 2 := lt_of_le_of_ne w1 (Ne.symm this)
    exact pos_of_mul_pos_left h3 hsq.le
  -- diffraction constants
  unfold diffC adiffInit at hc
  obtain ⟨⟨_, r⟩, hc, -⟩ := bind_eq_ok.1 hc
  obtain ⟨_, hn, hc⟩ := bind_eq_ok.1 hc
  obtain ⟨_, -, hc⟩ := bind_eq_ok.1 hc
  obtain ⟨_, -, hc⟩ := bind_eq_ok.1 hc
  obtain ⟨_, -, hc⟩ := bind_eq_ok.1 hc
  obtain ⟨_, hq, hc⟩ := bind_eq_ok.1 hc
  obtain ⟨_, -, hc⟩ := bind_eq_ok.1 hc
  obtain ⟨qk, hqk, hc⟩ := bind_eq_ok.1 hc
  obtain ⟨t0, ht0, hc⟩ := bind_eq_ok.1 hc
  obtain ⟨t1, ht1, -⟩ := bind_eq_ok.1 hc
  have hn := (need_eq_ok.1 hn)
  dsimp only at hn
  obtain rfl := Option.some.inj hn
  obtain ⟨hq0, -⟩ := pyPow_eq_ok.1 hq
  obtain ⟨hz0, -⟩ := pyDiv_eq_ok.1 hqk
  obtain ⟨a0, b0⟩ := adiffTerm_physical ht0 hw
  obtain ⟨a1, b1⟩ := adiffTerm_physical ht1 hw
  have a0' : 0 < p.he.x0 := a0
  refine ⟨hw, ?_, a0, a1, b0, b1, ?_, ?_⟩
  · rw [ex0] at p0
    have p0' : 0 ≤ 2.0 * p.he.x0 / p.gme := p0
    by_contra c
    have : p.gme < 0 := lt_of_le_of_ne (not_lt.1 c) hgme
    have : 2.0 * p.he.x0 / p.gme < 0 := div_neg_of_pos_of_neg (by norm_num; exact a0') this
    linarith
  · have e : Real.exp (-hz.dlsa / 50e3) ≤ 1 := Real.exp_le_one_iff.2 (div_nonpos_of_nonpos_of_nonneg (by linarith) (by norm_num))
    have hq0' : 0 ≤ (1.0 - 0.8 * Real.exp (-hz.dlsa / 50e3)) * p.dh / 16.0 := hq0
    by_contra c
    push Not at c
    have : (1.0 - 0.8 * Real.exp (-hz.dlsa / 50e3)) * p.dh < 0 := by
      refine mul_neg_of_pos_of_neg ?_ c
      generalize Real.exp (-hz.dlsa / 50e3) = x at e
      norm_num; linarith
    have : (1.0 - 0.8 * Real.exp (-hz.dlsa / 50e3)) * p.dh / 16.0 < 0 := div_neg_of_neg_of_pos this (by norm_num)
    linarith
  · by_contra c
    push Not at c
    apply hz0
    show p.zgnd.abs = 0
    rw [cxabs_real, c.1, c.2]; norm_num

theorem freeSpace_pos {w d fs : ℝ} (h : freeSpace w d = .ok fs) : 0 < w * d := by
  unfold freeSpace at h
  obtain ⟨l, hl, -⟩ := bind_eq_ok.1 h
  have := (npLog_eq_ok.1 hl).1
  norm_num at this
  nlinarith

theorem qlrpflPrep_dist {p q : PropSt ℝ} (h : qlrpflPrep p = .ok q) : q.dist = p.pfl.np * p.pfl.xi := by
  unfold qlrpflPrep at h
  obtain ⟨⟨the, dl⟩, _, h⟩ := bind_eq_ok.1 h
  obtain ⟨dh, _, h⟩ := bind_eq_ok.1 h
  dsimp only at h
  split_ifs at h with h1
  · obtain ⟨p', hp', h⟩ := bind_eq_ok.1 h
    rw [pure_ok, ok_inj] at h; subst h
    unfold pflLos at hp'
    obtain ⟨⟨za, zb⟩, _, hp'⟩ := bind_eq_ok.1 hp'
    obtain ⟨z0, _, hp'⟩ := bind_eq_ok.1 hp'
    obtain ⟨z1, _, hp'⟩ := bind_eq_ok.1 hp'
    obtain ⟨d0, _, hp'⟩ := bind_eq_ok.1 hp'
    obtain ⟨d1, _, hp'⟩ := bind_eq_ok.1 hp'
    dsimp only at hp'
    split_ifs at hp' with h2
    · obtain ⟨q1, _, hp'⟩ := bind_eq_ok.1 hp'
      obtain ⟨d2, _, hp'⟩ := bind_eq_ok.1 hp'
      obtain ⟨d3, _, hp'⟩ := bind_eq_ok.1 hp'
      rw [pure_bind'] at hp'
      obtain ⟨t0, _, hp'⟩ := bind_eq_ok.1 hp'
      obtain ⟨t1, _, hp'⟩ := bind_eq_ok.1 hp'
      rw [pure_ok, ok_inj] at hp'; subst hp'
      rw [prepMarks_eq]; rfl
    · rw [pure_bind'] at hp'
      obtain ⟨t0, _, hp'⟩ := bind_eq_ok.1 hp'
      obtain ⟨t1, _, hp'⟩ := bind_eq_ok.1 hp'
      rw [pure_ok, ok_inj] at hp'; subst hp'
      rw [prepMarks_eq]; rfl
  · obtain ⟨p', hp', h⟩ := bind_eq_ok.1 h
    rw [pure_ok, ok_inj] at h; subst h
    unfold pflObs at hp'
    obtain ⟨⟨za, _⟩, _, hp'⟩ := bind_eq_ok.1 hp'
    obtain ⟨⟨_, zb⟩, _, hp'⟩ := bind_eq_ok.1 hp'
    obtain ⟨z0, _, hp'⟩ := bind_eq_ok.1 hp'
    obtain ⟨z1, _, hp'⟩ := bind_eq_ok.1 hp'
    rw [pure_ok, ok_inj] at hp'; subst hp'
    rw [prepMarks_eq]; rfl

/-- `qlrpfl` reads the first and the last sample. -/
theorem qlrpfl_physical {s q : PropSt ℝ} (h : qlrpfl s = .ok q) :
    (∃ r, qlrpflPrep s = .ok r ∧ Physical r) ∧ q.wn = s.wn ∧ q.dist = s.pfl.np * s.pfl.xi ∧ 1 ≤ s.pfl.z.length ∧ s.pfl.np < s.pfl.z.length := by
  unfold qlrpfl at h
  obtain ⟨r, hr, h⟩ := bind_eq_ok.1 h
  have hr' := hr
  unfold qlrpflPrep at hr'
  obtain ⟨⟨the, dl⟩, hz, hr'⟩ := bind_eq_ok.1 hr'
  obtain ⟨dh, -, hr'⟩ := bind_eq_ok.1 hr'
  unfold hzns at hz
  obtain ⟨z0, h0, hz⟩ := bind_eq_ok.1 hz
  obtain ⟨z1, h1, -⟩ := bind_eq_ok.1 hz
  have hlen : s.pfl.flat.length = s.pfl.z.length + 2 := by unfold Pfl.flat; simp
  have l0 : 1 ≤ s.pfl.z.length := by
    by_contra c
    unfold Pfl.get at h0
    rw [pyGet_out (by rw [hlen]; right; omega)] at h0
    cases h0
  have l1 : s.pfl.np < s.pfl.z.length := by
    by_contra c
    unfold Pfl.get at h1
    rw [pyGet_out (by rw [hlen]; right; omega)] at h1
    cases h1
  have hd := qlrpflPrep_dist hr
  have hP : r.mdp = -1 ∧ r.wn = s.wn := by
    obtain ⟨_, _, _, _, _, rfl⟩ := qlrpflPrep_frame hr
    rw [prepMarks_eq]; exact ⟨rfl, rfl⟩
  obtain ⟨hm, hw⟩ := hP
  have hq := lrprop_dist h
  rw [if_neg (by rw [hm]; decide), if_neg (by rw [hm]; decide)] at hq
  refine ⟨⟨r, hr, C67_lrprop (by rw [hm]; decide) h⟩, ?_, ?_, l0, l1⟩
  · obtain ⟨_, _, _, _, _, _, _, rfl⟩ := lrprop_frame h
    exact hw
  · rw [hq.1, hd]

/-- **C67** (point-to-point) A run is answered only for positive frequency and distance and at least two profile points; the prepared
link is physical. -/
theorem C67_p2p {qc qr : List Int} {p r : PropSt ℝ} {profile : List ℝ} {rows : List (P2PRow ℝ)} {msgs : List P2PMsg}
    (h : itmlogicP2PAt qc qr p profile = .ok (rows, msgs, r)) :
    0 < p.fmhz ∧ 0 < p.d ∧ 2 ≤ profile.length ∧ ∃ s t, p2pSetup p profile = .ok s ∧ qlrpflPrep s = .ok t ∧ Physical t := by
  obtain ⟨s, q, fs, zr, zc, hs, hq, hfs, -⟩ := itmlogicP2PAt_ok h
  obtain ⟨⟨t, ht, P⟩, e1, e2, e3, e4⟩ := qlrpfl_physical hq
  have hpos := freeSpace_pos hfs
  obtain ⟨xi, z, hsys, es⟩ := p2pSetup_ok hs
  have tw : t.wn = p.fmhz / 47.7 := by
    obtain ⟨_, _, _, _, _, rfl⟩ := qlrpflPrep_frame ht
    rw [prepMarks_eq, es]
  have hw := P.wn
  rw [tw] at hw
  have hf : 0 < p.fmhz := by
    by_contra c
    have := div_nonpos_of_nonpos_of_nonneg (not_lt.1 c) (show (0:ℝ) ≤ 47.7 by norm_num)
    linarith
  have sw : s.wn = p.fmhz / 47.7 := by rw [es]
  have snp : s.pfl.np = profile.length - 1 := by rw [es]
  have sxi : s.pfl.xi = xi := by rw [es]
  have sz : s.pfl.z = profile := by rw [es]
  rw [e1, sw, e2, snp, sxi] at hpos
  unfold p2pSys at hsys
  obtain ⟨xi', hxi, hsys⟩ := bind_eq_ok.1 hsys
  obtain ⟨zq, -, hsys⟩ := bind_eq_ok.1 hsys
  have exi : xi' = xi := by
    dsimp only at hsys
    split_ifs at hsys
    · obtain ⟨_, -, hsys⟩ := bind_eq_ok.1 hsys
      rw [pure_ok, ok_inj, Prod.mk.injEq] at hsys; exact hsys.1
    · rw [pure_bind', pure_ok, ok_inj, Prod.mk.injEq] at hsys; exact hsys.1
  subst exi
  obtain ⟨n0, exi⟩ := pyDiv_eq_ok.1 hxi
  rw [rofInt] at n0 exi
  have hdist : 0 < (((profile.length : Int) - 1 : Int) : ℝ) * xi' := by
    have : 0 < p.fmhz / 47.7 := by positivity
    exact pos_of_mul_pos_right hpos this.le
  have ed : (((profile.length : Int) - 1 : Int) : ℝ) * xi' = (if p.d ≤ (0.0 : ℝ) then 0.0 * (((profile.length : Int) - 1 : Int) : ℝ) else p.d) * 1000.0 := by
    rw [exi]; field_simp
  refine ⟨hf, ?_, ?_, s, t, hs, ht, P⟩
  · by_contra c
    rw [ed, if_pos (by rw [zero_lit]; exact not_lt.1 c)] at hdist
    norm_num at hdist
  · rw [sz] at e3
    by_contra c
    have : profile.length = 1 := by omega
    apply n0
    rw [this]; norm_num

theorem plan_nd {g : Grid ℝ} {dt : ℝ} (h : (areaPlan g).ds = some dt) : 1 ≤ (areaPlan g).nd := by
  have fl : ∀ {x y : ℝ}, 0 < y → 0 ≤ x → 1 ≤ ⌊x / y + 1.75⌋ := by
    intro x y hy hx
    have := div_nonneg hx hy.le
    rw [Int.le_floor]; norm_num; linarith
  have fl0 : ∀ {x y : ℝ}, 0 < y → 0 ≤ x → 0 ≤ ⌊x / y + 0.75⌋ := by
    intro x y hy hx
    have := div_nonneg hx hy.le
    rw [Int.floor_nonneg]; norm_num; linarith
  unfold areaPlan at h ⊢
  dsimp only at h ⊢
  generalize (if (if g.d0 ≤ (0.0 : ℝ) then g.ds1 else g.d0) ≤ (0.0 : ℝ) then (2.0 : ℝ) else if g.d0 ≤ (0.0 : ℝ) then g.ds1 else g.d0) = d0 at h ⊢
  by_cases c1 : g.d1 ≤ d0 ∨ g.ds1 ≤ (0.0 : ℝ)
  · rw [if_pos c1] at h
    dsimp only at h
    split_ifs at h
  · rw [if_neg c1]
    dsimp only
    rw [zero_lit] at c1 ⊢
    push Not at c1
    have n1 := fl c1.2 (x := g.d1 - d0) (by linarith [c1.1])
    split_ifs with c2
    · exact n1
    · push Not at c2
      have n2 := fl0 c2.2 (sub_nonneg.2 c2.1.le)
      simp only [rfloor] at n1 n2 ⊢
      omega

/-- **C67** (area) A run is answered only for positive frequency and irregularity that is not negative, with antennas above ground where
siting is random; the prepared link is physical. -/
theorem C67_area {qt ql : Int} {qc : List Int} {g : Grid ℝ} {kst : Pair Int} {p r : PropSt ℝ} {rows : List (AreaRow ℝ)}
    (h : itmlogicAreaAt qt ql qc g kst p = .ok (rows, r)) :
    0 < p.fmhz ∧ 0 ≤ p.dh ∧ (kst.x0 ≤ 0 → 0 < p.hg.x0) ∧ (kst.x1 ≤ 0 → 0 < p.hg.x1) ∧
      ∃ s t, areaSetup p = .ok s ∧ qlra kst s = .ok t ∧ Physical t := by
  obtain ⟨zt, zl, zc, s, t, dt, -, -, -, hs, ht, hdt, h⟩ := itmlogicAreaAt_ok h
  obtain ⟨k, hk⟩ : ∃ k, (areaPlan g).nd.toNat = k + 1 := ⟨(areaPlan g).nd.toNat - 1, by have := plan_nd hdt; omega⟩
  rw [hk] at h
  unfold areaLoop at h
  obtain ⟨u, hu, -⟩ := bind_eq_ok.1 h
  have ht' := ht
  unfold qlra at ht'
  obtain ⟨⟨dl0, the0⟩, -, ht'⟩ := bind_eq_ok.1 ht'
  obtain ⟨⟨dl1, the1⟩, -, ht'⟩ := bind_eq_ok.1 ht'
  dsimp only at ht'
  rw [pure_ok, ok_inj, prepMarks_eq] at ht'
  have hm : t.mdp = 1 := by rw [← ht']
  have P := C67_lrprop (p := { t with lvar := max 1 t.lvar }) (by show t.mdp ≠ 0; rw [hm]; decide) hu
  have P' : Physical t := ⟨P.wn, P.gme, P.he0, P.he1, P.dl0, P.dl1, P.dh, P.zgnd⟩
  rw [areaSetup_eq] at hs
  have hs' := hs
  obtain ⟨z, -, hs'⟩ := bind_eq_ok.1 hs'
  rw [pure_ok, ok_inj] at hs'
  rw [← areaSetup_eq] at hs
  have w := P.wn
  have d := P.dh
  have a0 := P.he0
  have a1 := P.he1
  dsimp only at w d a0 a1
  rw [← ht', ← hs'] at w d a0 a1
  dsimp only at w d a0 a1
  refine ⟨?_, d, fun hk => ?_, fun hk => ?_, s, t, hs, ht, P'⟩
  · by_contra c
    have := div_nonpos_of_nonpos_of_nonneg (not_lt.1 c) (show (0:ℝ) ≤ 47.7 by norm_num)
    linarith
  · unfold qlraHe at a0; rwa [if_pos hk] at a0
  · unfold qlraHe at a1; rwa [if_pos hk] at a1

/-- **C67** (measurement campaign) A run is answered only if the distances have a first and a larger second entry and there are terrain
samples for all of them. -/
theorem C67_pimter {qr qc : Int} {terrain surface distance : List ℝ} {p : PropSt ℝ} {rows : List (PimterRow ℝ)}
    (h : runItmlogicPimterAt qr qc terrain surface distance p = .ok rows) :
    ∃ d0 d1 tl, distance = d0 :: d1 :: tl ∧ d0 < d1 ∧ distance.length ≤ terrain.length := by
  unfold runItmlogicPimterAt at h
  obtain ⟨_, -, h⟩ := bind_eq_ok.1 h
  obtain ⟨_, -, h⟩ := bind_eq_ok.1 h
  obtain ⟨s, hs, h⟩ := bind_eq_ok.1 h
  obtain ⟨zr, -, h⟩ := bind_eq_ok.1 h
  obtain ⟨zc, -, h⟩ := bind_eq_ok.1 h
  rw [pimterSetup_eq] at hs
  obtain ⟨d1, h1, hs⟩ := bind_eq_ok.1 hs
  obtain ⟨d0, h0, hs⟩ := bind_eq_ok.1 hs
  obtain ⟨dn, -, hs⟩ := bind_eq_ok.1 hs
  obtain ⟨z, -, hs⟩ := bind_eq_ok.1 hs
  rw [pure_ok, ok_inj] at hs
  rw [List.range_succ_eq_map, List.map_cons, pimterLoop_cons] at h
  obtain ⟨⟨row, u⟩, ht, -⟩ := bind_eq_ok.1 h
  unfold pimterTurn at ht
  obtain ⟨v, hv, ht⟩ := bind_eq_ok.1 ht
  obtain ⟨fs, hfs, -⟩ := bind_eq_ok.1 ht
  obtain ⟨-, e1, e2, -, e4⟩ := qlrpfl_physical hv
  have hpos := freeSpace_pos hfs
  rw [e1, e2, ← hs] at hpos
  rw [← hs] at e4
  dsimp only at hpos e4
  match distance, h1, h0 with
  | [], h1, _ => rw [pyGet_out (by simp)] at h1; cases h1
  | [x], h1, _ => rw [pyGet_out (by simp)] at h1; cases h1
  | x :: y :: tl, h1, h0 =>
    have ey : d1 = y := by
      have : pyGet (x :: y :: tl) 1 = .ok y := rfl
      rw [this, ok_inj] at h1; exact h1.symm
    have ex : d0 = x := by
      have : pyGet (x :: y :: tl) 0 = .ok x := rfl
      rw [this, ok_inj] at h0; exact h0.symm
    subst ey ex
    refine ⟨d0, d1, tl, rfl, ?_, by omega⟩
    have hw : (0:ℝ) < 2.488 * 1000.0 / 47.7 := by norm_num
    have := pos_of_mul_pos_right hpos hw.le
    have hn : (0:ℝ) < (((d0 :: d1 :: tl).length : ℤ) - 1 : ℤ) := by
      have : (0:ℤ) < ((d0 :: d1 :: tl).length : ℤ) - 1 := by simp only [List.length_cons]; omega
      exact_mod_cast this
    have := pos_of_mul_pos_right this hn.le
    linarith

/-- Runs of the three runners are answered, so that the conclusions hold of them; with the frequency negated the first is not answered. -/
example : (∃ x, itmlogicP2PAt [50] [50] levelLink [0, 0] = .ok x) ∧ (∃ x, itmlogicArea gridDefault ⟨2, 2⟩ levelRun = .ok x) ∧
    (∃ x, runItmlogicPimterAt 50 50 [7, 7] [] [0, 200000] smooth = .ok x) ∧
    ¬ ∃ x, itmlogicP2PAt [50] [50] { levelLink with fmhz := -levelLink.fmhz } [0, 0] = .ok x := by
  refine ⟨?_, ?_, pimter_run (by norm_num) (by norm_num) 7 [] smooth 50 50, ?_⟩
  · obtain ⟨_, _, _, h⟩ := level_run levelLink_path 0 [50] [50]
    exact ⟨_, h⟩
  · obtain ⟨_, _, _, _, _, _, _, h⟩ := C66_smooth (p := levelRun) 50 50 areaQc ⟨2, 2⟩ (by norm_num [levelRun]) (by norm_num [levelRun])
      (by norm_num [levelRun]) rfl (by norm_num [levelRun]) (by norm_num [levelRun]) gridDefault_step
    exact ⟨_, h⟩
  · rintro ⟨⟨rows, msgs, r⟩, h⟩
    have := (C67_p2p h).1
    norm_num [levelLink] at this

end Itm.Props

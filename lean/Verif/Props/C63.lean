import Verif.Lemmas.PathRun

/-! C63, C64: the height datum and the direction of a point-to-point path. -/

namespace Itm.Props
open Itm Itm.Spec

/-- **C63** Rows, messages and exceptions of a run do not depend on the datum of the terrain heights: raising all of them by `c` changes
nothing. -/
theorem C63_datum {p : PropSt ℝ} {profile : List ℝ} (hd : 0 < p.d) (hl : 2 ≤ profile.length) (hg0 : 0 < p.hg.x0) (hg1 : 0 < p.hg.x1)
    (qc qr : List Int) (c : ℝ) :
    (itmlogicP2PAt qc qr p (profile.map (· + c))).map (fun x => (x.1, x.2.1)) = (itmlogicP2PAt qc qr p profile).map (fun x => (x.1, x.2.1)) := by
  have key := p2p_rel_geom ordered_real qc qr (p := p) (p' := p) (profile := profile) (profile' := profile.map (· + c)) rfl rfl rfl rfl
    (by rw [List.length_map]) fun xi zgnd hs => ?_
  · refine Eq.symm (key.map_eq fun x y h => ?_)
    exact Prod.ext h.1 h.2
  obtain ⟨exi, -⟩ := p2pSys_real hd hl hs
  have hn0 : (0 : ℝ) < (profile.length - 1 : ℕ) := by exact_mod_cast (by omega : 0 < profile.length - 1)
  have hκ := (curvature_range (n := 314.0) (by norm_num) (by norm_num)).1
  exact (geomC_shift (pfl := { np := profile.length - 1, xi := xi, z := profile }) (n := profile.length - 1) c (by omega) (by dsimp only; omega)
    (by dsimp only; rw [exi]; positivity) (by dsimp only; omega) hg0 hg1 (by linarith)).symm

/-- **C64** (what holds) A run from the other end (profile reversed, antennas exchanged) returns the same rows and messages, on
obstructed paths on which neither terminal sees two obstacles under its horizon angle, and on clear paths whose first two and last two
points have one height. Full statement: on every path; false, see `C64_clear_refuted` and `C64_ties_refuted`. -/
theorem C64_reciprocal_partial {qc qr : List Int} {p r : PropSt ℝ} {profile : List ℝ} {rows : List (P2PRow ℝ)} {msgs : List P2PMsg}
    (hd : 0 < p.d) (hl : 2 ≤ profile.length) (hg0 : 0 < p.hg.x0) (hg1 : 0 < p.hg.x1)
    (h : itmlogicP2PAt qc qr p profile = .ok (rows, msgs, r)) {P : Path} (hP : P = profilePath p.d p.hg.x0 p.hg.x1 profile)
    (hcase : (¬ P.Clear ∧ P.SharpHorizons) ∨ (P.Clear ∧ P.z P.n = P.z (P.n - 1) ∧ P.z 0 = P.z 1)) :
    ∃ r', itmlogicP2PAt qc qr { p with hg := p.hg.swap } profile.reverse = .ok (rows, msgs, r') := by
  obtain ⟨s, q, fs, zr, zc, hs, hq, hfs, hms, hzr, hzc, hrs⟩ := itmlogicP2PAt_ok h
  have hpq := p2pPrep_ok hs hq
  obtain ⟨xi, zg, hsys, rfl⟩ := p2pSetup_ok hs
  obtain ⟨exi, -⟩ := p2pSys_real hd hl hsys
  obtain ⟨n, hn⟩ : ∃ n, n = profile.length - 1 := ⟨_, rfl⟩
  have hn1 : 1 ≤ n := by omega
  have hn0 : (0 : ℝ) < n := by exact_mod_cast hn1
  rw [← hn] at exi
  have hκ := (curvature_range (n := 314.0) (by norm_num) (by norm_num)).1
  have eN : (314.0 : ℝ) = 314 := by norm_num
  have hxi : 0 < xi := by rw [exi]; positivity
  have hsys' : p2pSys p.fmhz p.d p.ipol profile.reverse = .ok (xi, zg) := by
    rw [← hsys]; unfold p2pSys; rw [List.length_reverse]
  obtain ⟨g, eg, p0, p1, eg'⟩ := geomC_rev (pfl := { np := profile.length - 1, xi := xi, z := profile }) (hg := p.hg) (gme := effCurvature 157e-9 314.0)
    (n := n) (P := P) hn1 (by dsimp only; omega) hxi (by dsimp only; omega) hg0 hg1 (by linarith)
    (by rw [hP]; unfold profilePath pflPath; simp only [effCurvature_real, eN, exi, hn]) hcase
  unfold qlrpfl at hq
  rw [qlrpflPrep_eq] at hq
  obtain ⟨t, ht, hq⟩ := bind_eq_ok.1 hq
  dsimp only at ht
  rw [eg, ok_bind, pure_ok, ok_inj, prepMarks_eq] at ht
  obtain ⟨s', es'⟩ : ∃ s', p2pSetup { p with hg := p.hg.swap } profile.reverse = .ok s' := by
    rw [p2pSetup_eq]; dsimp only; rw [hsys', ok_bind]; exact ⟨_, rfl⟩
  obtain ⟨xi', zg', h1, es⟩ := p2pSetup_ok es'
  dsimp only at h1 es
  rw [hsys', ok_inj, Prod.mk.injEq] at h1
  obtain ⟨rfl, rfl⟩ := h1
  rw [List.length_reverse] at es
  obtain ⟨t', ht'⟩ : ∃ t', qlrpflPrep s' = .ok t' := by
    rw [qlrpflPrep_eq, es]; dsimp only; rw [eg', ok_bind]; exact ⟨_, rfl⟩
  have ht2 := ht'
  rw [qlrpflPrep_eq, es] at ht2
  dsimp only at ht2
  rw [eg', ok_bind, pure_ok, ok_inj, prepMarks_eq] at ht2
  have hm : t.mdp ≠ 0 := by rw [← ht]; simp
  obtain ⟨u, hz, hu, u1, u2, u3, u4, u5⟩ := lrprop_exchange hm (by rw [← ht]; exact p0) (by rw [← ht]; exact p1) hq
  have hrel := lrprop_rel ordered_real (0.0 : ℝ) (p := exchange t) (q := t') (by
    refine ⟨?_, ?_, fun _ => ?_, fun h => absurd h hm⟩
    · rw [← ht, ← ht2]; rfl
    · rw [← ht, ← ht2]; rfl
    · rw [← ht, ← ht2]; rfl) (fun h => absurd h hm)
  rw [hu] at hrel
  cases hq' : lrprop (0.0 : ℝ) t' with
  | error e => rw [hq'] at hrel; exact absurd hrel id
  | ok v =>
    rw [hq'] at hrel
    obtain ⟨hout, -, -⟩ : LrOut u v ∧ _ := hrel
    have hql : qlrpfl s' = .ok v := by unfold qlrpfl; rw [ht', ok_bind]; exact hq'
    have hpv := p2pPrep_ok es' hql
    have fq := lrprop_frame hq
    have fv := lrprop_frame hq'
    have vhe : v.he = q.he.swap := by
      obtain ⟨_, _, _, _, _, _, _, rfl⟩ := fq
      obtain ⟨_, _, _, _, _, _, _, rfl⟩ := fv
      rw [← ht, ← ht2]; rfl
    have vdh : v.dh = q.dh := by
      obtain ⟨_, _, _, _, _, _, _, rfl⟩ := fq
      obtain ⟨_, _, _, _, _, _, _, rfl⟩ := fv
      rw [← ht, ← ht2]; rfl
    have vxi : v.pfl.xi = q.pfl.xi := by
      obtain ⟨_, _, _, _, _, _, _, rfl⟩ := fq
      obtain ⟨_, _, _, _, _, _, _, rfl⟩ := fv
      rw [← ht, ← ht2]; rfl
    have vd : v.dist = q.dist := by rw [← hout.dist, u3]
    have vw : v.wn = q.wn := by rw [hpv.wn, hpq.wn]
    have va : v.aref = q.aref := by rw [← hout.aref, u1]
    have vh : v.hor = some (swapH hz) := by rw [← hout.hor, u5]
    have hsame : SameAns q v := ⟨hpq.inv, hpv.inv, freshAns_exchanged (by rw [hpq.klim, hpv.klim]) (by rw [hpq.mdvar, hpv.mdvar]) vw vhe vd vdh va,
      by rw [hpq.d, hpv.d]⟩
    have hms' : p2pReport v = .ok msgs := by
      rw [← hms]
      unfold p2pReport
      rw [vh, u4, vd, vxi, need_some, need_some, ok_bind, ok_bind]
      have ed : (swapH hz).dlsa = hz.dlsa := rfl
      rw [ed]
      by_cases hc : q.dist ≤ hz.dlsa
      · simp only [hc, if_true]
      · have : v.scat = q.scat := by
          rw [← u2]
          refine (hout.scat (swapH hz) u5 ?_).symm
          rw [u3]; exact (not_le.1 hc).le
        rw [this]
    obtain ⟨r', hr', -⟩ := p2pRows_same hsame hrs
    refine ⟨r', ?_⟩
    unfold itmlogicP2PAt
    rw [es', ok_bind, hzr, ok_bind, hzc, ok_bind, hql, ok_bind, vw, vd, hfs, ok_bind, hms', ok_bind, hr', ok_bind]
    rfl

/-- A ridge of 200 m between two terminals at sea level, 20 m and 10 m antennas: obstructed, with sharp horizons. -/
example : ¬ (profilePath 20 20 10 [0, 200, 30, 0]).Clear ∧ (profilePath 20 20 10 [0, 200, 30, 0]).SharpHorizons := by
  obtain ⟨hκ, hκ'⟩ := curvature_range (n := 314) (by norm_num) (by norm_num)
  rw [effCurvature_real] at hκ hκ'
  norm_num at hκ hκ'
  constructor
  · intro h
    have := h 1 le_rfl (by show 1 < 3; norm_num)
    simp only [profilePath] at this
    norm_num at this
    linarith
  · constructor <;> intro i j i1 i2 j1 j2 hi e <;> simp only [profilePath, elevation] at hi e i2 j2 <;> norm_num at i2 j2 <;>
      interval_cases i <;> interval_cases j <;> first | rfl | (exfalso; norm_num at e; linarith)

/-- The level path of 100 km: the same rows at any height of the ground and from either end. -/
example : ∃ rows msgs r r₁ r₂, itmlogicP2P levelLink [0, 0] = .ok (rows, msgs, r) ∧ itmlogicP2P levelLink ([0, 0].map (· + 1500)) = .ok (rows, msgs, r₁) ∧
    itmlogicP2P { levelLink with hg := levelLink.hg.swap } [0, 0].reverse = .ok (rows, msgs, r₂) := by
  obtain ⟨rows, msgs, r, h⟩ := level_run levelLink_path 0 p2pQc p2pQr
  have h1 := C63_datum (p := levelLink) (profile := [0, 0]) (by norm_num [levelLink]) (by simp) (by norm_num [levelLink]) (by norm_num [levelLink])
    p2pQc p2pQr 1500
  obtain ⟨r₂, h2⟩ := C64_reciprocal_partial (p := levelLink) (by norm_num [levelLink]) (by simp) (by norm_num [levelLink])
    (by norm_num [levelLink]) h rfl (.inr ⟨fun j j1 j2 => by simp only [profilePath] at j2; norm_num at j2; omega, by simp [profilePath]⟩)
  rw [h] at h1
  obtain ⟨⟨a, b, r₁⟩, e, e'⟩ := map_ok.1 h1
  cases e'
  exact ⟨rows, msgs, r, r₁, r₂, h, e, h2⟩

/-- The same path entered from the other end. -/
def otherEnd (p : PropSt ℝ) : PropSt ℝ := { p with hg := p.hg.swap, pfl := { p.pfl with z := p.pfl.z.reverse } }

/-- **C64** (refuted, clear paths) Straight terrain that falls by `s` per interval towards the receiver: from one end the lower antenna is
credited with `s` metres more than from the other. -/
theorem C64_clear_refuted {p : PropSt ℝ} {n : ℕ} {c s : ℝ} (hn : 1 ≤ n) (hnp : p.pfl.np = n) (hx : 0 < p.pfl.xi) (hl : p.pfl.z.length = n + 1)
    (hκ : 0 < p.gme) (hs : 0 < s) (hz : ∀ j, j ≤ n → p.pfl.z.getD j 0 = c - s * j)
    (hg0 : p.gme * (n * p.pfl.xi) ^ 2 / 8 < p.hg.x0) (hg1 : p.gme * (n * p.pfl.xi) ^ 2 / 8 < p.hg.x1) :
    ∃ q q', qlrpflPrep p = .ok q ∧ qlrpflPrep (otherEnd p) = .ok q' ∧ q.he.x1 = p.hg.x1 + s ∧ q'.he.x0 = p.hg.x1 := by
  obtain ⟨q, e, h⟩ := prep_straight (p := p) (n := n) (c := c) (s := s) hn hnp hx (by omega) hκ (fun j hj => hz j (by omega)) hg0 hg1
  obtain ⟨q', e', h'⟩ := prep_straight (p := otherEnd p) (n := n) (c := c - s * n) (s := -s) hn hnp hx
    (by show n < p.pfl.z.reverse.length; rw [List.length_reverse]; omega) hκ (fun j hj => by
      have hj' : j < p.pfl.z.reverse.length := hj
      rw [List.length_reverse] at hj'
      show p.pfl.z.reverse.getD j 0 = _
      rw [getD_reverse hl (by omega), hz _ (by omega), Nat.cast_sub (by omega)]
      ring) hg1 hg0
  refine ⟨q, q', e, e', ?_, ?_⟩
  · rw [h]; dsimp only; rw [max_eq_left hs.le]
  · rw [h']; rfl

/-- A path of three kilometres; the first terminal sees two ridges under one angle. -/
noncomputable def tiePath : PropSt ℝ :=
  { blank 0 smoothIn with hg := ⟨10, 20⟩, pfl := { np := 3, xi := 1000, z := [0, 110.0625, 210.25, 0] } }

theorem tie_horizon {p q : PropSt ℝ} (hn : p.pfl.np = 3) (hx : p.pfl.xi = 1000) (hl : 3 < p.pfl.z.length)
    (hg0 : 0 < p.hg.x0) (hg1 : 0 < p.hg.x1) (hκ : 0 < p.gme) (h : qlrpflPrep p = .ok q) (hobs : ¬ (pathOf p 3).Clear) :
    (pathOf p 3).Horizons q.the.x0 q.the.x1 q.dl.x0 q.dl.x1 := by
  obtain ⟨θ₀, θ₁, d₀, d₁, x, y, H, -, -, -, -, ho⟩ := C58_obstructed (n := 3) (by norm_num) hn (by rw [hx]; norm_num) hl hg0 hg1 hκ h hobs
  obtain ⟨-, -, h1, h2, h3, h4⟩ := ho hobs
  have e1 : q.dl.x0 = d₀ := h1
  have e2 : q.dl.x1 = d₁ := h2
  have e3 : q.the.x0 = θ₀ := h3
  have e4 : q.the.x1 = θ₁ := h4
  rw [e1, e2, e3, e4]
  exact H

/-- **C64** (refuted, obstructed paths) If a terminal sees two ridges under its horizon angle, the one scanned first is taken, so the
horizon distance of one and the same terminal depends on the direction: here 1 km from one end and 2 km from the other. -/
theorem C64_ties_refuted : ∃ q q', qlrpflPrep tiePath = .ok q ∧ qlrpflPrep (otherEnd tiePath) = .ok q' ∧ q.dl.x0 = 1000 ∧ q'.dl.x1 = 2000 := by
  have hk : tiePath.gme = 1.25e-7 := rfl
  have hk' : (otherEnd tiePath).gme = 1.25e-7 := rfl
  have ez : (otherEnd tiePath).pfl.z = [0, 210.25, 110.0625, 0] := rfl
  obtain ⟨q, e, -⟩ := C39_total (p := tiePath) (n := 3) (by norm_num) rfl (by norm_num [tiePath]) (by simp [tiePath])
    (by norm_num [tiePath]) (by norm_num [tiePath]) (by rw [hk]; norm_num)
  obtain ⟨q', e', -⟩ := C39_total (p := otherEnd tiePath) (n := 3) (by norm_num) rfl (by norm_num [tiePath, otherEnd]) (by rw [ez]; simp)
    (by norm_num [tiePath, otherEnd, Pair.swap]) (by norm_num [tiePath, otherEnd, Pair.swap]) (by rw [hk']; norm_num)
  have H := tie_horizon (p := tiePath) rfl rfl (by simp [tiePath]) (by norm_num [tiePath]) (by norm_num [tiePath]) (by rw [hk]; norm_num) e (by
    intro hc
    have := hc 1 le_rfl (by show 1 < 3; norm_num)
    simp only [pathOf, hk] at this
    norm_num [tiePath] at this)
  have H' := tie_horizon (p := otherEnd tiePath) rfl rfl (by rw [ez]; simp) (by norm_num [tiePath, otherEnd, Pair.swap])
    (by norm_num [tiePath, otherEnd, Pair.swap]) (by rw [hk']; norm_num) e' (by
    intro hc
    have := hc 1 le_rfl (by show 1 < 3; norm_num)
    simp only [pathOf, hk', ez] at this
    norm_num [tiePath, otherEnd, Pair.swap] at this)
  refine ⟨q, q', e, e', ?_, ?_⟩
  · have K : IsHorizon (fun j => elevation (pathOf tiePath 3).κ ((pathOf tiePath 3).z 0 + (pathOf tiePath 3).hg₀) (j * (pathOf tiePath 3).ξ) ((pathOf tiePath 3).z j))
        (elevation (pathOf tiePath 3).κ ((pathOf tiePath 3).z 0 + (pathOf tiePath 3).hg₀) (pathOf tiePath 3).len ((pathOf tiePath 3).z 3 + (pathOf tiePath 3).hg₁))
        (fun j => j * (pathOf tiePath 3).ξ) (pathOf tiePath 3).len 2 0.1 1000 := by
      simp only [pathOf, hk, Path.len, elevation]
      refine ⟨by norm_num [tiePath], ?_, .inr ⟨1, le_rfl, by norm_num, by norm_num [tiePath], by norm_num [tiePath], by norm_num [tiePath], ?_⟩⟩
      · intro j h1 h2
        interval_cases j <;> norm_num [tiePath]
      · intro i h1 h2; omega
    exact (C35_determined K H.1).2
  · have K : IsHorizon (fun j => elevation (pathOf (otherEnd tiePath) 3).κ ((pathOf (otherEnd tiePath) 3).z 3 + (pathOf (otherEnd tiePath) 3).hg₁)
          (((3 : ℕ) - j) * (pathOf (otherEnd tiePath) 3).ξ) ((pathOf (otherEnd tiePath) 3).z j))
        (elevation (pathOf (otherEnd tiePath) 3).κ ((pathOf (otherEnd tiePath) 3).z 3 + (pathOf (otherEnd tiePath) 3).hg₁) (pathOf (otherEnd tiePath) 3).len
          ((pathOf (otherEnd tiePath) 3).z 0 + (pathOf (otherEnd tiePath) 3).hg₀))
        (fun j => ((3 : ℕ) - j) * (pathOf (otherEnd tiePath) 3).ξ) (pathOf (otherEnd tiePath) 3).len 2 0.1 2000 := by
      simp only [pathOf, hk', ez, Path.len, elevation]
      refine ⟨by norm_num [tiePath, otherEnd, Pair.swap], ?_, .inr ⟨1, le_rfl, by norm_num, by norm_num [tiePath, otherEnd, Pair.swap],
        by norm_num [tiePath, otherEnd, Pair.swap], by norm_num [tiePath, otherEnd, Pair.swap], ?_⟩⟩
      · intro j h1 h2
        interval_cases j <;> norm_num [tiePath, otherEnd, Pair.swap]
      · intro i h1 h2; omega
    exact (C35_determined K H'.2).2

/-- Terrain falling 30 m per kilometre. -/
example : ∃ q q', qlrpflPrep (pathState [100, 70, 40]) = .ok q ∧ qlrpflPrep (otherEnd (pathState [100, 70, 40])) = .ok q' ∧ q.he.x1 = 20 + 30 ∧ q'.he.x0 = 20 := by
  refine C64_clear_refuted (p := pathState [100, 70, 40]) (n := 2) (c := 100) (s := 30) (by norm_num) rfl (by norm_num [pathState])
    (by simp [pathState]) (by simp [pathState, blank, smoothIn, tangentIn]; norm_num) (by norm_num) ?_ ?_ ?_
  · intro j hj
    interval_cases j <;> norm_num [pathState]
  · rw [show (pathState [100, 70, 40]).gme = 1.25e-7 from rfl]; norm_num [pathState]
  · rw [show (pathState [100, 70, 40]).gme = 1.25e-7 from rfl]; norm_num [pathState]

end Itm.Props

import Verif.Props.C59
import Verif.Props.C65
import Verif.Props.C48
import Verif.Props.C60
import Verif.Props.C63
import Verif.Lemmas.DocsPath

/-! C73: the link of the documentation, which the point-to-point programs are shipped with. -/

namespace Itm.Props
open Itm Itm.Spec

/-- The link of a prepared dictionary is that of the path. -/
theorem prep_link {p s q : PropSt ℝ} {profile : List ℝ} (hd : 0 < p.d) (hl : 2 ≤ profile.length) (hg0 : 0 < p.hg.x0) (hg1 : 0 < p.hg.x1)
    (hs : p2pSetup p profile = .ok s) (hq : qlrpflPrep s = .ok q) {P : Path} (hP : P = profilePath p.d p.hg.x0 p.hg.x1 profile) :
    ∃ G z, P.IsGeometry (P.z (P.n - 1)) G ∧ IsImpedance 15 0.005 (waveNumber p.fmhz) (decide (p.ipol ≠ 0)) z ∧
      linkOf q = P.link G (waveNumber p.fmhz) 314 z := by
  obtain ⟨xi, zg, hsys, es⟩ := p2pSetup_ok hs
  obtain ⟨exi, hz⟩ := p2pSys_real hd hl hsys
  obtain ⟨n, hn⟩ : ∃ n, n = profile.length - 1 := ⟨_, rfl⟩
  have hn1 : 1 ≤ n := by omega
  have hn0 : (0 : ℝ) < n := by exact_mod_cast hn1
  rw [← hn] at exi
  have hκ := (curvature_range (n := 314.0) (by norm_num) (by norm_num)).1
  have eN : (314.0 : ℝ) = 314 := by norm_num
  have sp : s.pfl = { np := profile.length - 1, xi, z := profile } := by rw [es]
  have sg : s.gme = curvature 314 := by rw [es, ← effCurvature_real, ← eN]
  have sh : s.hg = p.hg := by rw [es]
  have snp : s.pfl.np = n := by rw [sp]; show (profile.length : ℤ) - 1 = n; omega
  have sx : 0 < s.pfl.xi := by rw [sp]; show 0 < xi; rw [exi]; positivity
  have sl : n < s.pfl.z.length := by rw [sp]; show n < profile.length; omega
  have hκ' : 0 < s.gme := by rw [sg, ← effCurvature_real, ← eN]; linarith
  have hpath : pathOf s n = P := by
    rw [hP]
    unfold pathOf profilePath
    simp only [sp, sg, sh, exi, hn]
  have hG := C58_clear_shifted hn1 snp sx sl (by rw [sh]; exact hg0) (by rw [sh]; exact hg1) hκ' hq
  obtain ⟨t', e, PR⟩ := qlrpflPrep_ok hn1 snp sx sl (by rw [sh]; exact hg0) (by rw [sh]; exact hg1) hκ'
  rw [hq, ok_inj] at e
  subst e
  have hr := PR.rest
  have hPn : P.n = n := by rw [hP, hn]; rfl
  have hPz : P.z = fun j => profile.getD j 0 := by rw [hP]; rfl
  rw [hpath, sp] at hG
  refine ⟨geometryOf q, zg.toC, by rw [hPn, hPz]; exact hG, hz, ?_⟩
  have hmdp : q.mdp = -1 := by rw [hr]
  unfold linkOf Path.link geometryOf
  rw [hmdp]
  have e1 : q.hg = p.hg := by rw [hr]; exact sh
  have e2 : q.wn = waveNumber p.fmhz := by rw [hr]; show s.wn = _; rw [es]; rfl
  have e3 : q.ens = 314 := by rw [hr]; show s.ens = _; rw [es]; exact eN
  have e4 : q.gme = P.κ := by rw [hr, hP]; exact sg
  have e5 : q.zgnd = zg := by rw [hr]; show s.zgnd = _; rw [es]
  have e6 : P.hg₀ = p.hg.x0 ∧ P.hg₁ = p.hg.x1 := by rw [hP]; exact ⟨rfl, rfl⟩
  simp only [e1, e2, e3, e4, e5, e6.1, e6.2, Cx.toC]
  rfl

/-- **C65** (from the profile) The point-to-point runner, 20 MHz to 20 GHz, antennas of 0.5 to 3000 m, any profile of at least two
points over a positive distance: whether the run is answered, in terms of the link that follows from the profile. -/
theorem C65_path {p : PropSt ℝ} {profile : List ℝ} (qc qr : List Int) (hl : 2 ≤ profile.length) (hd : 0 < p.d)
    (hf : 20 ≤ p.fmhz ∧ p.fmhz ≤ 20000) (hg0 : 0.5 ≤ p.hg.x0 ∧ p.hg.x0 ≤ 3000) (hg1 : 0.5 ≤ p.hg.x1 ∧ p.hg.x1 ≤ 3000)
    {P : Path} (hP : P = profilePath p.d p.hg.x0 p.hg.x1 profile) :
    ∃ G z, P.IsGeometry (P.z (P.n - 1)) G ∧ IsImpedance 15 0.005 (waveNumber p.fmhz) (decide (p.ipol ≠ 0)) z ∧
      ∀ L, L = P.link G (waveNumber p.fmhz) 314 z → L.Usable → (1000 * p.d < L.dlsa ∨ 0 < L.scatterAngle L.d5) →
        (L.NoClash (1000 * p.d) → ∃ rows msgs r, itmlogicP2PAt qc qr p profile = .ok (rows, msgs, r)) ∧
        (¬ L.NoClash (1000 * p.d) → itmlogicP2PAt qc qr p profile = .error .zeroDivision) := by
  obtain ⟨s, q, hs, hq, hdist, H⟩ := C65_p2p qc qr hl hd hf hg0 hg1
  obtain ⟨G, z, hG, hz, e⟩ := prep_link hd hl (by linarith [hg0.1]) (by linarith [hg1.1]) hs hq hP
  refine ⟨G, z, hG, hz, fun L hL hu hr => ?_⟩
  rw [← e] at hL
  rw [mul_comm] at hdist
  subst hL
  rw [hdist] at H
  exact H ⟨hu.t0, hu.t1, hu.he0, hu.he1⟩ hr

/-- **C48** (from the profile) The path class of a run, in terms of the link that follows from the profile: whether the length of the path
falls short of, or exceeds, the sum of the smooth-earth horizon distances of the effective heights by more than half an interval. The
terrain between the terminals enters through the effective heights only. -/
theorem C48_path {qc qr : List Int} {p r : PropSt ℝ} {profile : List ℝ} {rows : List (P2PRow ℝ)} {msgs : List P2PMsg}
    (hd : 0 < p.d) (hl : 2 ≤ profile.length) (hg0 : 0 < p.hg.x0) (hg1 : 0 < p.hg.x1)
    (h : itmlogicP2PAt qc qr p profile = .ok (rows, msgs, r)) {P : Path} (hP : P = profilePath p.d p.hg.x0 p.hg.x1 profile) :
    ∃ G z, P.IsGeometry (P.z (P.n - 1)) G ∧ IsImpedance 15 0.005 (waveNumber p.fmhz) (decide (p.ipol ≠ 0)) z ∧
      ∀ L, L = P.link G (waveNumber p.fmhz) 314 z →
        (.lineOfSight ∈ msgs ↔ 1000 * p.d < L.dlsa - P.ξ / 2) ∧ (.doubleHorizon ∈ msgs ↔ L.dlsa + P.ξ / 2 < 1000 * p.d) ∧
        (.singleHorizon ∈ msgs ↔ |1000 * p.d - L.dlsa| ≤ P.ξ / 2) ∧ (.diffractionDominant ∈ msgs ↔ 1000 * p.d ≤ L.dlsa) := by
  obtain ⟨s, q, fs, zr, zc, hs, hq, -, hm, -, -, -⟩ := itmlogicP2PAt_ok h
  have hq' := hq
  unfold qlrpfl at hq'
  obtain ⟨b, hb, hb'⟩ := bind_eq_ok.1 hq'
  obtain ⟨G, z, hG, hz, e⟩ := prep_link hd hl hg0 hg1 hs hb hP
  refine ⟨G, z, hG, hz, fun L hL => ?_⟩
  obtain ⟨xi, zg, hsys, es⟩ := p2pSetup_ok hs
  obtain ⟨exi, -⟩ := p2pSys_real hd hl hsys
  have hn0 : (0 : ℝ) < ((profile.length - 1 : ℕ) : ℝ) := by exact_mod_cast (by omega : 0 < profile.length - 1)
  have hκ := (curvature_range (n := 314.0) (by norm_num) (by norm_num)).1
  obtain ⟨t', e', PR⟩ := qlrpflPrep_ok (p := s) (n := profile.length - 1) (by omega) (by rw [es]; show (profile.length : ℤ) - 1 = _; omega)
    (by rw [es]; show 0 < xi; rw [exi]; positivity) (by rw [es]; show profile.length - 1 < profile.length; omega)
    (by rw [es]; exact hg0) (by rw [es]; exact hg1) (by rw [es]; show 0 < effCurvature 157e-9 314.0; linarith)
  rw [hb, ok_inj] at e'
  subst e'
  have hr := PR.rest
  have hmdp : b.mdp = -1 := by rw [hr]
  have hbx : b.pfl.xi = xi := by rw [hr, es]
  have hbd : b.dist = 1000 * p.d := by
    rw [hr, es]
    show ((profile.length - 1 : ℕ) : ℝ) * xi = _
    rw [exi]; field_simp
  rw [lrprop_setup (by omega)] at hb'
  obtain ⟨st, hst, hb'⟩ := bind_eq_ok.1 hb'
  obtain ⟨c, hc, hb'⟩ := bind_eq_ok.1 hb'
  rw [pure_ok, ok_inj] at hb'
  obtain ⟨_, ⟨e1, _⟩, _⟩ := line_spec hst
  have hh : q.hor = some st.h := by rw [← hb']; rfl
  have hqd : q.dist = 1000 * p.d := by
    have : q.dist = distOf b 0.0 := by rw [← hb']; rfl
    rw [this]; unfold distOf; rw [if_neg (by omega)]; exact hbd
  have hqx : q.pfl.xi = P.ξ := by
    have : q.pfl = b.pfl := by rw [← hb']; rfl
    rw [this, hbx, exi, hP]; rfl
  have hPx : 0 < P.ξ := by rw [hP]; show 0 < 1000 * p.d / ((profile.length - 1 : ℕ) : ℝ); positivity
  have := C48_class_meaning (q := q) (by rw [hqx]; exact hPx.le) hh hm
  rw [e1, hqd, hqx, e, ← hL] at this
  exact this

/-! ### The documented link -/

theorem docs_user (p : PropSt ℝ) : (p2pUser p).d = 77.8 ∧ (p2pUser p).fmhz = 41.5 ∧ (p2pUser p).hg = ⟨143.9, 8.5⟩ ∧ (p2pUser p).ipol = 0 :=
  ⟨rfl, rfl, rfl, rfl⟩

theorem docs_path (p : PropSt ℝ) : docsPath = profilePath (p2pUser p).d (p2pUser p).hg.x0 (p2pUser p).hg.x1 docsProfile := rfl

theorem docs_km (p : PropSt ℝ) : 1000 * (p2pUser p).d = 77800 := by
  rw [(docs_user p).1]; norm_num

/-- The run is answered, for any requested levels. -/
theorem docs_answered (qc qr : List Int) (p : PropSt ℝ) : ∃ rows msgs r, itmlogicP2PAt qc qr (p2pUser p) docsProfile = .ok (rows, msgs, r) := by
  obtain ⟨G, z, hG, hz, H⟩ := C65_path (p := p2pUser p) (profile := docsProfile) qc qr (by rw [docs_length]; norm_num)
    (by rw [(docs_user p).1]; norm_num) (by rw [(docs_user p).2.1]; norm_num) (by rw [(docs_user p).2.2.1]; norm_num)
    (by rw [(docs_user p).2.2.1]; norm_num) (docs_path p)
  obtain ⟨D, U⟩ := docs_link (N := 314) hG hz
  have hs : 1000 * (p2pUser p).d < (docsPath.link G (waveNumber 41.5) 314 z).dlsa := by
    rw [docs_km]; linarith [D.dlsa_bounds.1]
  refine (H (docsPath.link G (waveNumber 41.5) 314 z) rfl U (.inl hs)).1 ?_
  unfold Link.NoClash
  rw [if_pos hs]
  exact D.no_clash

/-- **C73** The run the point-to-point programs are shipped with (41.5 MHz, 77.8 km, the 157 heights of the documentation) is answered,
whatever levels are requested: every row is the published loss of the link that follows from the profile, with the receiver's own
ground height. -/
theorem C73_answered (qc qr : List Int) (p : PropSt ℝ) :
    ∃ rows msgs r, itmlogicP2PAt qc qr (p2pUser p) docsProfile = .ok (rows, msgs, r) ∧
      ∃ G z, docsPath.IsGeometry (docsPath.z docsPath.n) G ∧ IsImpedance 15 0.005 (waveNumber 41.5) false z ∧
        ∀ row ∈ rows, row.distance_km = 77.8 ∧ ∃ zr zc, DeviateOf row.reliability zr ∧ DeviateOf row.confidence zc ∧
          row.loss = (docsPath.link G (waveNumber 41.5) 314 z).loss 5 1 true false 77800 zr 0 zc := by
  obtain ⟨rows, msgs, r, h⟩ := docs_answered qc qr p
  refine ⟨rows, msgs, r, h, ?_⟩
  obtain ⟨G, z, hG, hz, H⟩ := C59_p2p_partial (by rw [(docs_user p).1]; norm_num) (by rw [docs_length]; norm_num)
    (by rw [(docs_user p).2.2.1]; norm_num) (by rw [(docs_user p).2.2.1]; norm_num) h (docs_path p) (.inl docs_obstructed)
  refine ⟨G, z, hG, hz, fun row hrow => ?_⟩
  obtain ⟨D, U⟩ := docs_link (N := 314) hG hz
  have := H (docsPath.link G (waveNumber 41.5) 314 z) rfl
    (.inl ⟨by rw [docs_km]; norm_num, by rw [docs_km]; linarith [D.dlsa_bounds.1]⟩) row hrow
  rw [docs_km] at this
  exact this

/-- **C73** (the geometry) The horizon of the transmitter is the 111th point, that of the receiver the 39th from the other side; the effective
heights are 240.5 m and 18.4 m to a decimetre, the horizon angles -3.85 mrad and 0.45 mrad to 0.05 mrad. -/
theorem C73_geometry {G : Geometry} (h : docsPath.IsGeometry (docsPath.z docsPath.n) G) :
    |G.he₀ - 240.5| ≤ 0.1 ∧ |G.he₁ - 18.4| ≤ 0.1 ∧ G.dl₀ = 111 * docsPath.ξ ∧ G.dl₁ = 39 * docsPath.ξ ∧
    |G.the₀ - -0.00385| ≤ 0.00005 ∧ |G.the₁ - 0.00045| ≤ 0.00005 := by
  obtain ⟨a1, a2, b1, b2, d0, d1, t0, t1, t2, hdh⟩ := docs_geometry h
  rw [docs_xi]
  refine ⟨?_, ?_, d0, d1, ?_, ?_⟩ <;> rw [abs_le] <;> constructor <;> norm_num at * <;> linarith

/-- **C73** (refuted: the report) The terrain rises above the line between the antennas, the two horizons it forms lie 6 intervals apart, and
yet the run reports a line-of-sight path. -/
theorem C73_report_refuted {qc qr : List Int} {p r : PropSt ℝ} {rows : List (P2PRow ℝ)} {msgs : List P2PMsg}
    (h : itmlogicP2PAt qc qr (p2pUser p) docsProfile = .ok (rows, msgs, r)) :
    ¬ docsPath.Clear ∧ (∀ G, docsPath.IsGeometry (docsPath.z docsPath.n) G → G.dl₀ + G.dl₁ = docsPath.len - 6 * docsPath.ξ) ∧
      .lineOfSight ∈ msgs ∧ .doubleHorizon ∉ msgs ∧ .singleHorizon ∉ msgs := by
  refine ⟨docs_obstructed, fun G hG => ?_, ?_⟩
  · obtain ⟨-, -, d0, d1, -⟩ := C73_geometry hG
    rw [d0, d1, docs_len, docs_xi]; norm_num
  obtain ⟨G, z, hG, hz, H⟩ := C48_path (by rw [(docs_user p).1]; norm_num) (by rw [docs_length]; norm_num)
    (by rw [(docs_user p).2.2.1]; norm_num) (by rw [(docs_user p).2.2.1]; norm_num) h (docs_path p)
  obtain ⟨D, U⟩ := docs_link (N := 314) hG hz
  obtain ⟨h1, h2, h3, -⟩ := H (docsPath.link G (waveNumber 41.5) 314 z) rfl
  have hl := D.dlsa_bounds.1
  rw [h1, h2, h3, docs_km, docs_xi]
  generalize (docsPath.link G (waveNumber 41.5) 314 z).dlsa = x at *
  refine ⟨by norm_num at *; linarith, by norm_num at *; linarith, fun hc => ?_⟩
  have := (abs_le.1 hc).1
  norm_num at *; linarith

theorem onePeak_at {view : ℕ → ℝ} {m k : ℕ} (h1 : 1 ≤ k) (h2 : k ≤ m) (h : ∀ i, 1 ≤ i → i ≤ m → i ≠ k → view i < view k) : OnePeak view m := by
  intro i j i1 i2 j1 j2 hi hj
  have ei : i = k := by
    by_contra c
    have := h i i1 i2 c
    have := hi k h1 h2
    linarith
  subst ei
  by_contra c
  have := h j j1 j2 c
  linarith

/-- Only one point attains each horizon angle. -/
theorem docs_sharp : docsPath.SharpHorizons := by
  unfold Path.SharpHorizons
  rw [docs_top0, docs_top1, docs_n]
  have e : ((156 : ℕ) : ℝ) - ((117 : ℕ) : ℝ) = 39 := by norm_num
  exact ⟨onePeak_at (k := 111) (by norm_num) (by norm_num) fun i i1 i2 hi => by
      have := docs_view0 i1 (by omega) hi; push_cast; exact this,
    onePeak_at (k := 117) (by norm_num) (by norm_num) fun i i1 i2 hi => by
      have := docs_view1 i1 (by omega) hi; rw [e]; push_cast; exact this⟩

/-- **C73** (from the other end) The same run with the profile reversed and the antennas exchanged returns the same rows and messages. -/
theorem C73_reversed (qc qr : List Int) (p : PropSt ℝ) : ∃ rows msgs r r',
    itmlogicP2PAt qc qr (p2pUser p) docsProfile = .ok (rows, msgs, r) ∧
    itmlogicP2PAt qc qr { p2pUser p with hg := ⟨8.5, 143.9⟩ } docsProfile.reverse = .ok (rows, msgs, r') := by
  obtain ⟨rows, msgs, r, h⟩ := docs_answered qc qr p
  obtain ⟨r', h'⟩ := C64_reciprocal_partial (by rw [(docs_user p).1]; norm_num) (by rw [docs_length]; norm_num)
    (by rw [(docs_user p).2.2.1]; norm_num) (by rw [(docs_user p).2.2.1]; norm_num) h (docs_path p) (.inl ⟨docs_obstructed, docs_sharp⟩)
  exact ⟨rows, msgs, r, r', h, h'⟩

end Itm.Props

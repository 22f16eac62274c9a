import Verif.Lemmas.RefineP2P
import Verif.Lemmas.MesaPath
import Verif.Props.C95

/-! C99: with growing precision, the whole point-to-point program approaches the exact one. -/

namespace Itm.Props
open Itm Itm.Spec Filter Asymptotics Topology

variable {ι : Type} {l : Filter ι} {α : ι → Type} [∀ i, PyNum (α i)] {ε : ι → ℝ}

/-- There is one ground impedance. -/
theorem impedance_unique {f : ℝ} (hf : 0 < f) {v : Bool} {z z' : ℂ} (h : IsImpedance 15 0.005 (waveNumber f) v z) (h' : IsImpedance 15 0.005 (waveNumber f) v z') : z = z' := by
  obtain ⟨r, e, hr, rfl⟩ := h
  obtain ⟨r', e', hr', rfl⟩ := h'
  suffices r = r' by rw [this]
  have hw : 0 < waveNumber f := by unfold waveNumber; positivity
  rcases sq_eq_sq_iff_eq_or_eq_neg.1 (e.trans e'.symm) with h | h
  · exact h
  exfalso
  have h0 : r.re = 0 := by
    have : r.re = -r'.re := by rw [h]; rfl
    linarith
  have him : (r ^ 2).im = 376.62 * 0.005 / waveNumber f := by
    rw [e]; unfold permittivity; simp
  rw [pow_two, Complex.mul_im, h0, zero_mul, mul_zero, add_zero] at him
  have : 0 < 376.62 * 0.005 / waveNumber f := by positivity
  linarith

/-- The path and the link the program works on. -/
theorem p2p_ready {p s b : PropSt ℝ} {profile : List ℝ} (hf : 0 < p.fmhz) (hd : 0 < p.d) (hl : 2 ≤ profile.length) (hg0 : 0 < p.hg.x0) (hg1 : 0 < p.hg.x1)
    (hs : p2pSetup p profile = .ok s) (hb : qlrpflPrep s = .ok b) {P : Path} (hP : P = profilePath p.d p.hg.x0 p.hg.x1 profile) :
    s.pfl.np = (profile.length - 1 : ℕ) ∧ 0 < s.pfl.xi ∧ profile.length - 1 < s.pfl.z.length ∧ s.hg = p.hg ∧ 0 < s.gme ∧ 0 < s.wn ∧ 0 < s.zgnd.re ∧
      pathOf s (profile.length - 1) = P ∧ s.pfl.z.getD (profile.length - 1 - 1) 0 = P.z (P.n - 1) ∧ b.dist = 1000 * p.d ∧ s.pfl.xi = P.ξ ∧
      P.IsGeometry (P.z (P.n - 1)) (geometryOf b) ∧
      ∃ z, IsImpedance 15 0.005 (waveNumber p.fmhz) (decide (p.ipol ≠ 0)) z ∧ linkOf b = P.link (geometryOf b) (waveNumber p.fmhz) 314 z := by
  obtain ⟨xi, zg, hsys, es⟩ := p2pSetup_ok hs
  obtain ⟨exi, -⟩ := p2pSys_real hd hl hsys
  have hn0 : (0 : ℝ) < ((profile.length - 1 : ℕ) : ℝ) := by exact_mod_cast (by omega : 0 < profile.length - 1)
  have hκ := (curvature_range (n := 314.0) (by norm_num) (by norm_num)).1
  have eN : (314.0 : ℝ) = 314 := by norm_num
  have pz : 0 < zg.re := by
    unfold p2pSys groundZq at hsys
    obtain ⟨x, -, hsys⟩ := bind_eq_ok.1 hsys
    obtain ⟨zq, hzq, hsys⟩ := bind_eq_ok.1 hsys
    obtain ⟨y, hy, hzq⟩ := bind_eq_ok.1 hzq
    rw [pure_ok, ok_inj] at hzq
    subst hzq
    dsimp only at hsys
    have hsys' : ∃ z', (if p.ipol ≠ 0 then Cx.div (Cx.sqrt (Cx.sub ⟨15.0, y⟩ ⟨1.0, 0.0⟩)) ⟨15.0, y⟩ else pure (Cx.sqrt (Cx.sub ⟨15.0, y⟩ ⟨1.0, 0.0⟩))) = .ok z' ∧ z' = zg := by
      split_ifs at hsys ⊢ with c
      · obtain ⟨z', h1, h2⟩ := bind_eq_ok.1 hsys
        rw [pure_ok, ok_inj, Prod.mk.injEq] at h2
        exact ⟨z', h1, h2.2⟩
      · rw [pure_bind', pure_ok, ok_inj, Prod.mk.injEq] at hsys
        exact ⟨_, rfl, hsys.2⟩
    obtain ⟨z', h1, rfl⟩ := hsys'
    refine ground_pos ?_ h1
    rw [(pyDiv_eq_ok.1 hy).2]; positivity
  have k1 : s.pfl.np = (profile.length - 1 : ℕ) := by rw [es]; show (profile.length : ℤ) - 1 = _; omega
  have k2 : 0 < s.pfl.xi := by rw [es]; show 0 < xi; rw [exi]; positivity
  have k3 : profile.length - 1 < s.pfl.z.length := by rw [es]; show profile.length - 1 < profile.length; omega
  have k4 : s.hg = p.hg := by rw [es]
  have k5 : 0 < s.gme := by rw [es]; show 0 < effCurvature 157e-9 314.0; linarith
  have k6 : s.pfl.xi = P.ξ := by rw [es, hP]; exact exi
  have sg : s.gme = curvature 314 := by rw [es, ← effCurvature_real, ← eN]
  have k7 : pathOf s (profile.length - 1) = P := by
    rw [hP]
    unfold pathOf profilePath
    rw [sg, k4]
    have e : s.pfl = { np := profile.length - 1, xi, z := profile } := by rw [es]
    simp only [e, exi]
  have hG := C58_clear_shifted (by omega) k1 k2 k3 (by rw [k4]; exact hg0) (by rw [k4]; exact hg1) k5 hb
  obtain ⟨t', e, PR⟩ := qlrpflPrep_ok (by omega) k1 k2 k3 (by rw [k4]; exact hg0) (by rw [k4]; exact hg1) k5
  rw [hb, ok_inj] at e
  subst e
  have k8 : s.pfl.z.getD (profile.length - 1 - 1) 0 = P.z (P.n - 1) := by rw [es, hP]; rfl
  rw [k7, k8] at hG
  obtain ⟨G, z, hG', hz, eL⟩ := prep_link hd hl hg0 hg1 hs hb hP
  have hPn : 1 ≤ P.n := by rw [hP]; show 1 ≤ profile.length - 1; omega
  have eG : G = geometryOf b := C58_determined hPn (by rw [← k6]; exact k2) hG hG'
  subst eG
  refine ⟨k1, k2, k3, k4, k5, by rw [es]; show 0 < p.fmhz / 47.7; positivity, by rw [es]; exact pz, k7, k8, ?_, k6, hG, z, hz, eL⟩
  rw [PR.rest, k6, hP]
  show ((profile.length - 1 : ℕ) : ℝ) * (1000 * p.d / (profile.length - 1 : ℕ)) = _
  field_simp

/-- **C99** The point-to-point program in arithmetics that grow precise: what the user supplies is approximated, no requested percentage
sits at a switch of the deviate, and neither the profile nor the link that follows from it sits at a threshold. If the exact program returns,
the programs finally return too, with as many rows, with the same labels, and distances and losses approach the exact ones as fast as the
arithmetics grow precise. Off the horizon by more than half a sample interval the class of the path and the remark on diffraction are
finally the exact ones as well. -/
theorem C99_p2p (F : Refining l α ε) {U : ∀ i, PropSt (α i)} {p r : PropSt ℝ} {A : ∀ i, List (α i)} {profile : List ℝ} {qc qr : List Int}
    {rows : List (P2PRow ℝ)} {msgs : List P2PMsg} (hU : LinkApx F U p A profile) (u : Untouched p) (hf : 0 < p.fmhz) (hd : 0 < p.d) (hl : 2 ≤ profile.length)
    (hg0 : 0 < p.hg.x0) (hg1 : 0 < p.hg.x1) (h : itmlogicP2PAt qc qr p profile = .ok (rows, msgs, r))
    (cc : ∀ x ∈ qc, Untied ((x : ℝ) / 100)) (cr : ∀ x ∈ qr, Untied ((x : ℝ) / 100)) {P : Path} (hP : P = profilePath p.d p.hg.x0 p.hg.x1 profile) {G : Geometry}
    (hG : P.IsGeometry (P.z (P.n - 1)) G) (g : P.Generic (P.z (P.n - 1)) G.dh) (pdh : 0 < G.dh) {z : ℂ}
    (hz : IsImpedance 15 0.005 (waveNumber p.fmhz) (decide (p.ipol ≠ 0)) z) {L : Link} (hL : L = P.link G (waveNumber p.fmhz) 314 z) (c : L.Clear (1000 * p.d)) :
    ∃ (R : ∀ i, List (P2PRow (α i))) (M : ι → List P2PMsg) (Q : ∀ i, PropSt (α i)), (∀ᶠ i in l, itmlogicP2PAt qc qr (U i) (A i) = .ok (R i, M i, Q i)) ∧
      (∀ᶠ i in l, (R i).length = rows.length) ∧
      (∀ (j : ℕ) (row : P2PRow ℝ), rows[j]? = some row → ∃ S : ∀ i, P2PRow (α i),
        (∀ᶠ i in l, (R i)[j]? = some (S i) ∧ (S i).reliability = row.reliability ∧ (S i).confidence = row.confidence) ∧
        F.Approx (fun i => (S i).distance_km) row.distance_km ∧ F.Approx (fun i => (S i).loss) row.loss) ∧
      (P.ξ / 2 < |1000 * p.d - L.dlsa| → ∀ᶠ i in l, ∀ m, m ≠ .scatterDominant → (m ∈ M i ↔ m ∈ msgs)) := by
  have key : Follows l (fun b y => ListApx l (LineApx F) (fun i => (b i).1) y.1 ∧
      (P.ξ / 2 < |1000 * p.d - L.dlsa| → ∀ᶠ i in l, SameReport (b i).2.1 y.2.1)) (fun i => itmlogicP2PAt qc qr (U i) (A i)) (itmlogicP2PAt qc qr p profile) := by
    unfold itmlogicP2PAt
    refine Follows.bind (refine_p2pSetup hU u hf hd) (fun S s hs hS => ?_)
    refine Follows.bind (refine_qerfi F qr cr) (fun ZR zr _ hZR => ?_)
    refine Follows.bind (refine_qerfi F qc cc) (fun ZC zc _ hZC => ?_)
    obtain ⟨s', q', -, -, -, hs', hq', -⟩ := itmlogicP2PAt_ok h
    rw [hs, ok_inj] at hs'
    subst hs'
    have hq'' := hq'
    unfold qlrpfl at hq''
    obtain ⟨b, hb, hb'⟩ := bind_eq_ok.1 hq''
    obtain ⟨k1, k2, k3, k4, k5, k6, k7, k8, k9, k10, k11, k12, z', hz', k13⟩ := p2p_ready hf hd hl hg0 hg1 hs hb hP
    have hPn : 1 ≤ P.n := by rw [hP]; show 1 ≤ profile.length - 1; omega
    have eG : G = geometryOf b := C58_determined hPn (by rw [← k11]; exact k2) k12 hG
    subst eG
    have ez : z' = z := impedance_unique hf hz' hz
    subst ez
    rw [← hL] at k13
    have done := refine_qlrpfl hS.1 (untouched_carry hS.2 S) (by omega) k1 k2 k3 (by rw [k4]; exact hg0) (by rw [k4]; exact hg1) k5 k6 k7 hb (by rw [k8, k9]; exact g) pdh (by rw [k13, k10]; exact c)
    refine Follows.bind done (fun Q q hq hQ => ?_)
    rw [hq', ok_inj] at hq
    subst hq
    have hmdp : b.mdp = -1 := by
      obtain ⟨t', e, PR⟩ := qlrpflPrep_ok (by omega) k1 k2 k3 (by rw [k4]; exact hg0) (by rw [k4]; exact hg1) k5
      rw [hb, ok_inj] at e
      subst e
      rw [PR.rest]
    rw [lrprop_setup (by omega)] at hb'
    obtain ⟨st, hst, hb'⟩ := bind_eq_ok.1 hb'
    obtain ⟨cc, hcc, hb'⟩ := bind_eq_ok.1 hb'
    rw [pure_ok, ok_inj] at hb'
    obtain ⟨_, ⟨e1, _⟩, _⟩ := line_spec hst
    rw [k13] at e1
    have hh : q'.hor = some st.h := by rw [← hb']; rfl
    have hqd : q'.dist = 1000 * p.d := by
      have : q'.dist = distOf b 0.0 := by rw [← hb']; rfl
      rw [this]; unfold distOf; rw [if_neg (by omega)]; exact k10
    have hqx : q'.pfl.xi = P.ξ := by
      have e : q'.pfl = b.pfl := by rw [← hb']; rfl
      have e' : b.pfl = s.pfl := by
        obtain ⟨t', e, PR⟩ := qlrpflPrep_ok (by omega) k1 k2 k3 (by rw [k4]; exact hg0) (by rw [k4]; exact hg1) k5
        rw [hb, ok_inj] at e
        subst e
        rw [PR.rest]
      rw [e, e', k11]
    refine Follows.bind (refine_freeSpace hQ.stat.wn hQ.stat.dist) (fun V v _ hV => ?_)
    refine Follows.bind (refine_report hQ ?_ (by rw [hqx, ← k11]; exact k2)) (fun M m _ hM => ?_)
    · intro k hk
      rw [hh] at hk
      obtain rfl := Option.some.inj hk
      rw [e1, hqd]; exact c.horizon
    refine Follows.bind (refine_p2pRows hV (refine_zip qc hZC) (refine_zip qr hZR) ⟨hQ.stat, hQ.knee, hQ.d⟩) (fun R y _ hR => ?_)
    refine Follows.pure ⟨hR, fun far => hM ?_⟩
    intro k hk
    rw [hh] at hk
    obtain rfl := Option.some.inj hk
    rw [e1, hqd, hqx]; exact far
  obtain ⟨B, hB, h1, h2⟩ := key _ h
  refine ⟨fun i => (B i).1, fun i => (B i).2.1, fun i => (B i).2.2, hB, h1.length, fun j row hj => ?_, h2⟩
  obtain ⟨S, s1, s2, s3, s4⟩ := h1.get hj
  refine ⟨S, ?_, s3, s4⟩
  filter_upwards [s1, s2] with i a b
  exact ⟨a, b⟩

/-- **C99** (published loss) The limits are the published losses of the link the profile describes, in climate 5, individual mode without location variability, for the
deviates of the requested levels. On a clear path the receiver stands at the height of the last point but one (`C40_refuted`). -/
theorem C99_published (F : Refining l α ε) {U : ∀ i, PropSt (α i)} {p r : PropSt ℝ} {A : ∀ i, List (α i)} {profile : List ℝ} {qc qr : List Int}
    {rows : List (P2PRow ℝ)} {msgs : List P2PMsg} (hU : LinkApx F U p A profile) (u : Untouched p) (hf : 0 < p.fmhz) (hd : 0 < p.d) (hl : 2 ≤ profile.length)
    (hg0 : 0 < p.hg.x0) (hg1 : 0 < p.hg.x1) (h : itmlogicP2PAt qc qr p profile = .ok (rows, msgs, r))
    (cc : ∀ x ∈ qc, Untied ((x : ℝ) / 100)) (cr : ∀ x ∈ qr, Untied ((x : ℝ) / 100)) {P : Path} (hP : P = profilePath p.d p.hg.x0 p.hg.x1 profile) {G : Geometry}
    (hG : P.IsGeometry (P.z (P.n - 1)) G) (g : P.Generic (P.z (P.n - 1)) G.dh) (pdh : 0 < G.dh) {z : ℂ}
    (hz : IsImpedance 15 0.005 (waveNumber p.fmhz) (decide (p.ipol ≠ 0)) z) {L : Link} (hL : L = P.link G (waveNumber p.fmhz) 314 z) (c : L.Clear (1000 * p.d)) :
    ∃ (R : ∀ i, List (P2PRow (α i))) (M : ι → List P2PMsg) (Q : ∀ i, PropSt (α i)), (∀ᶠ i in l, itmlogicP2PAt qc qr (U i) (A i) = .ok (R i, M i, Q i)) ∧
      (∀ᶠ i in l, (R i).length = rows.length) ∧
      ∀ (j : ℕ) (row : P2PRow ℝ), rows[j]? = some row → ∃ (S : ∀ i, P2PRow (α i)) (zr zc : ℝ),
        (∀ᶠ i in l, (R i)[j]? = some (S i) ∧ (S i).reliability = row.reliability ∧ (S i).confidence = row.confidence) ∧
        DeviateOf row.reliability zr ∧ DeviateOf row.confidence zc ∧ F.Approx (fun i => (S i).distance_km) p.d ∧
        F.Approx (fun i => (S i).loss) (L.loss 5 1 true false (1000 * p.d) zr 0 zc) := by
  obtain ⟨R, M, Q, a, b, k, -⟩ := C99_p2p F hU u hf hd hl hg0 hg1 h cc cr hP hG g pdh hz hL c
  obtain ⟨G', z', hG', hz', H⟩ := C59_p2p_shifted hd hl hg0 hg1 h hP
  have hPn : 1 ≤ P.n := by rw [hP]; show 1 ≤ profile.length - 1; omega
  have hx : 0 < P.ξ := by
    have : (0 : ℝ) < (profile.length - 1 : ℕ) := by exact_mod_cast (by omega : 0 < profile.length - 1)
    rw [hP]; show 0 < 1000 * p.d / (profile.length - 1 : ℕ); positivity
  have eG : G = G' := C58_determined hPn hx hG' hG
  subst eG
  have ez : z = z' := impedance_unique hf hz hz'
  subst ez
  have reg : L.Regular (1000 * p.d) := by
    by_cases w : 1000 * p.d < L.dlsa
    · exact .inl ⟨by linarith, w⟩
    · have sc := c.scatter (lt_of_le_of_ne (not_lt.1 w) c.horizon.symm)
      exact .inr ⟨sc.h5.usable.imp le_of_lt le_of_lt, sc.h6.usable.imp le_of_lt le_of_lt⟩
  refine ⟨R, M, Q, a, b, fun j row hj => ?_⟩
  obtain ⟨S, s1, s2, s3⟩ := k j row hj
  obtain ⟨e1, zr, zc, d1, d2, e⟩ := H L hL reg row (List.mem_of_getElem? hj)
  refine ⟨S, zr, zc, s1, d1, d2, ?_, ?_⟩
  · rw [← e1]; exact s2
  · rw [← e]; exact s3

/-! The tableland of `MesaPath` in the way of a link of 66 km, the shipped levels, numbers with `n` binary digits after the point. -/

theorem hastings_hundredth : 23267.6 < hastings (1 / 100) * 10000 ∧ hastings (1 / 100) * 10000 < 23268.4 := by
  obtain ⟨l1, l2⟩ := log_ten_bounds
  unfold hastings
  dsimp only
  have e : -2 * Real.log (1 / 100) = 4 * Real.log 10 := by
    rw [show (1 / 100 : ℝ) = ((10 : ℝ) ^ 2)⁻¹ by norm_num, Real.log_inv, Real.log_pow]; push_cast; ring
  rw [e]
  have r1 : 3.034852 ≤ √(4 * Real.log 10) := Real.le_sqrt_of_sq_le (by norm_num at *; linarith)
  have r2 : √(4 * Real.log 10) ≤ 3.034856 := Real.sqrt_le_iff.2 ⟨by norm_num, by norm_num at *; linarith⟩
  generalize √(4 * Real.log 10) = r at *
  have s1 := pow_le_pow_left₀ (by norm_num) r1 2
  have s2 := pow_le_pow_left₀ (le_trans (by norm_num) r1) r2 2
  have t1 := pow_le_pow_left₀ (by norm_num) r1 3
  have t2 := pow_le_pow_left₀ (le_trans (by norm_num) r1) r2 3
  generalize r ^ 2 = r2' at *
  generalize r ^ 3 = r3 at *
  have p : 0 < 1 + 1.432788 * r + 0.189269 * r2' + 0.001308 * r3 := by norm_num at *; linarith
  have u : (2.515516698 + 0.802853 * r + 0.010328 * r2') / (1 + 1.432788 * r + 0.189269 * r2' + 0.001308 * r3) ≤ 0.70808 := by
    rw [div_le_iff₀ p]; norm_num at *; linarith
  have v : 0.70806 ≤ (2.515516698 + 0.802853 * r + 0.010328 * r2') / (1 + 1.432788 * r + 0.189269 * r2' + 0.001308 * r3) := by
    rw [le_div_iff₀ p]; norm_num at *; linarith
  generalize (2.515516698 + 0.802853 * r + 0.010328 * r2') / (1 + 1.432788 * r + 0.189269 * r2' + 0.001308 * r3) = f at *
  constructor <;> (norm_num at *; linarith)

theorem untied_hundredth {q : ℝ} (h : tailOf q = 1 / 100) : Untied q := by
  obtain ⟨h1, h2⟩ := hastings_hundredth
  refine .inr fun k e => ?_
  rw [h] at e
  rw [e] at h1 h2
  have a : (23267 : ℝ) < k := by norm_num at *; linarith
  have b : (k : ℝ) < 23268 := by norm_num at *; linarith
  have a' : (23267 : ℤ) < k := by exact_mod_cast a
  have b' : k < (23268 : ℤ) := by exact_mod_cast b
  omega

theorem untied_p2p : (∀ x ∈ p2pQc, Untied ((x : ℝ) / 100)) ∧ ∀ x ∈ p2pQr, Untied ((x : ℝ) / 100) := by
  refine ⟨untied_area, fun x hx => ?_⟩
  simp only [p2pQr, List.mem_cons, List.not_mem_nil, or_false] at hx
  rcases hx with rfl | rfl | rfl | rfl | rfl
  · exact untied_hundredth (by unfold tailOf; norm_num [abs_of_pos])
  · exact untied_tenth (by unfold tailOf; norm_num [abs_of_pos])
  · left; norm_num
  · exact untied_tenth (by unfold tailOf; norm_num [abs_of_neg])
  · exact untied_hundredth (by unfold tailOf; norm_num [abs_of_neg])

/-- What the user supplies: 19.08 GHz, 66 km, antennas of 30 m, horizontal polarisation. -/
noncomputable def mesaUser : PropSt ℝ := { blank 1 hillIn with fmhz := 19080, d := 66, hg := ⟨30, 30⟩, ipol := 0 }
noncomputable def mesaUserAt (n : ℕ) : PropSt (Fixed n) :=
  { blank 1 (gridIn n hillIn) with fmhz := ⟨grid n 19080⟩, d := ⟨grid n 66⟩, hg := ⟨⟨grid n 30⟩, ⟨grid n 30⟩⟩, ipol := 0 }

theorem mesa_wn : waveNumber mesaUser.fmhz = 400 := by
  show waveNumber 19080 = 400
  unfold waveNumber; norm_num

theorem mesa_approx : LinkApx gridRefining mesaUserAt mesaUser (fun n => mesaZ ⟨grid n 0⟩ ⟨grid n 250⟩) (mesaZ 0 250) := by
  refine ⟨grid_approx _, grid_approx _, ⟨grid_approx _, grid_approx _⟩, fun _ => rfl, Eventually.of_forall fun _ => rfl, fun j x h => ?_⟩
  refine ⟨fun n => ⟨grid n x⟩, Eventually.of_forall fun n => ?_, grid_approx x⟩
  have : (mesaZ (⟨grid n 0⟩ : Fixed n) ⟨grid n 250⟩) = (mesaZ (0 : ℝ) 250).map fun x => ⟨grid n x⟩ := rfl
  rw [this, List.getElem?_map, h]
  rfl

/-- The shipped levels over the mesa. -/
theorem mesa_run : ∃ (G : Geometry) (z : ℂ) (L : Link) (rows : List (P2PRow ℝ)) (msgs : List P2PMsg) (r : PropSt ℝ),
    mesaPath.IsGeometry (mesaPath.z (mesaPath.n - 1)) G ∧ IsImpedance 15 0.005 (waveNumber mesaUser.fmhz) (decide (mesaUser.ipol ≠ 0)) z ∧
      L = mesaPath.link G (waveNumber mesaUser.fmhz) 314 z ∧ Mesa L ∧ 0 < G.dh ∧ L.Clear (1000 * mesaUser.d) ∧
      itmlogicP2PAt p2pQc p2pQr mesaUser (mesaZ 0 250) = .ok (rows, msgs, r) := by
  have hf : (20 : ℝ) ≤ 19080 ∧ (19080 : ℝ) ≤ 20000 := by norm_num
  have hg : (0.5 : ℝ) ≤ 30 ∧ (30 : ℝ) ≤ 3000 := by norm_num
  have hd : 0 < mesaUser.d := show (0 : ℝ) < 66 by norm_num
  have hl : 2 ≤ (mesaZ (0 : ℝ) 250).length := by show 2 ≤ 34; omega
  have hP : mesaPath = profilePath mesaUser.d mesaUser.hg.x0 mesaUser.hg.x1 (mesaZ 0 250) := mesa_profile.symm
  have ed : 1000 * mesaUser.d = 66000 := by show (1000 : ℝ) * 66 = 66000; norm_num
  obtain ⟨G, z, hG, hz, H⟩ := C65_path p2pQc p2pQr (p := mesaUser) hl hd hf hg hg hP
  obtain ⟨L, hL⟩ : ∃ L, L = mesaPath.link G (waveNumber mesaUser.fmhz) 314 z := ⟨_, rfl⟩
  have W : Mesa L := by
    rw [hL, mesa_wn]
    refine mesa_link hG ?_
    rw [mesa_wn] at hz; exact hz
  have far : L.dlsa < 1000 * mesaUser.d := by rw [ed]; linarith [W.dlsa.2]
  obtain ⟨rows, msgs, r, h⟩ := (H L hL W.link_usable (.inr (lt_of_lt_of_le (by norm_num) (W.angle_ge W.d5.ge)))).1
    (by unfold Link.NoClash; rw [if_neg (not_lt.2 far.le)]; exact W.notParallel)
  have c : L.Clear (1000 * mesaUser.d) := W.clear (by rw [ed]; norm_num)
  have pdh : 0 < G.dh := by
    have := W.dh
    rw [hL] at this
    exact lt_of_lt_of_le (by norm_num) this
  exact ⟨G, z, L, rows, msgs, r, hG, hz, hL, W, pdh, c, h⟩

/-- Non-vacuity: the shipped program over the tableland, all fifteen rows, and the class of the path. -/
example : ∃ (L : Link) (rows : List (P2PRow ℝ)) (msgs : List P2PMsg) (r : PropSt ℝ) (R : ∀ n, List (P2PRow (Fixed n))) (M : ℕ → List P2PMsg) (Q : ∀ n, PropSt (Fixed n)),
    Mesa L ∧ itmlogicP2P mesaUser (mesaZ 0 250) = .ok (rows, msgs, r) ∧ rows.length = 15 ∧
    (∀ᶠ n in atTop, itmlogicP2P (mesaUserAt n) (mesaZ ⟨grid n 0⟩ ⟨grid n 250⟩) = .ok (R n, M n, Q n) ∧ (R n).length = 15 ∧ .doubleHorizon ∈ M n) ∧
    ∀ (j : ℕ) (row : P2PRow ℝ), rows[j]? = some row → ∃ (S : ∀ n, P2PRow (Fixed n)) (zr zc : ℝ),
      (∀ᶠ n in atTop, (R n)[j]? = some (S n) ∧ (S n).reliability = row.reliability ∧ (S n).confidence = row.confidence) ∧
      DeviateOf row.reliability zr ∧ DeviateOf row.confidence zc ∧
      (fun n => (S n).loss.val - L.loss 5 1 true false 66000 zr 0 zc) =O[atTop] fun n => (1 / 2 : ℝ) ^ n := by
  have hd : 0 < mesaUser.d := show (0 : ℝ) < 66 by norm_num
  have f0 : 0 < mesaUser.fmhz := show (0 : ℝ) < 19080 by norm_num
  have g0 : (0 : ℝ) < 30 := by norm_num
  have hl : 2 ≤ (mesaZ (0 : ℝ) 250).length := by show 2 ≤ 34; omega
  have hP : mesaPath = profilePath mesaUser.d mesaUser.hg.x0 mesaUser.hg.x1 (mesaZ 0 250) := mesa_profile.symm
  have ed : 1000 * mesaUser.d = 66000 := by show (1000 : ℝ) * 66 = 66000; norm_num
  obtain ⟨G, z, L, rows, msgs, r, hG, hz, hL, W, pdh, c, h⟩ := mesa_run
  have u : Untouched mesaUser := ⟨rfl, rfl, rfl, rfl, rfl, rfl, rfl⟩
  obtain ⟨R, M, Q, a1, a2, -, a4⟩ := C99_p2p gridRefining mesa_approx u f0 hd hl g0 g0 h untied_p2p.1 untied_p2p.2 hP hG (mesa_generic _ _) pdh hz hL c
  obtain ⟨R', M', Q', b1, -, b3⟩ := C99_published gridRefining mesa_approx u f0 hd hl g0 g0 h untied_p2p.1 untied_p2p.2 hP hG (mesa_generic _ _) pdh hz hL c
  have n15 := (C42_shipped (show itmlogicP2P mesaUser (mesaZ 0 250) = .ok (rows, msgs, r) from h)).1
  have dbl : P2PMsg.doubleHorizon ∈ msgs := by
    obtain ⟨G', z', hG', hz', K⟩ := C48_path hd hl g0 g0 h hP
    have eG : G = G' := C58_determined (by show 1 ≤ 33; omega) (show (0 : ℝ) < 2000 by norm_num) hG' hG
    subst eG
    have ez := impedance_unique f0 hz hz'
    subst ez
    refine (K L hL).2.1.2 ?_
    rw [ed, show mesaPath.ξ = 2000 from rfl]
    linarith [W.dlsa.2]
  have a5 := a4 (by rw [ed, show mesaPath.ξ = 2000 from rfl, abs_of_pos (by linarith [W.dlsa.2])]; linarith [W.dlsa.2])
  refine ⟨L, rows, msgs, r, R, M, Q, W, h, n15, ?_, fun j row hj => ?_⟩
  · filter_upwards [a1, a2, a5] with n k1 k2 k3
    exact ⟨k1, k2.trans n15, (k3 _ (by decide)).2 dbl⟩
  · obtain ⟨S, zr, zc, s1, s2, s3, -, s4⟩ := b3 j row hj
    refine ⟨S, zr, zc, ?_, s2, s3, by rw [ed] at s4; exact s4.2⟩
    filter_upwards [a1, b1, s1] with n k1 k2 k3
    rw [k1, ok_inj] at k2
    rw [(Prod.mk.inj k2).1]; exact k3

end Itm.Props

import Verif.Lemmas.Exact
import Verif.Props.C92
import Verif.Props.C97
import Verif.Props.C56
import Verif.Props.C96

/-! C100: small errors of the inputs make small errors of the predictions. -/

namespace Itm.Props
open Itm Itm.Spec Filter Asymptotics Topology

/-- **C100** (point-to-point) Around every prediction in general position there are a size `δ₀` and a constant `K` such that the program answers every
input that is off by `δ < δ₀` (frequency, distance, antenna heights, each terrain height), with the same labels, and no distance or loss is off by
more than `K * δ`. -/
theorem C100_p2p {p r : PropSt ℝ} {profile : List ℝ} {qc qr : List Int} {rows : List (P2PRow ℝ)} {msgs : List P2PMsg} (u : Untouched p) (hf : 0 < p.fmhz)
    (hd : 0 < p.d) (hl : 2 ≤ profile.length) (hg0 : 0 < p.hg.x0) (hg1 : 0 < p.hg.x1) (h : itmlogicP2PAt qc qr p profile = .ok (rows, msgs, r))
    (cc : ∀ x ∈ qc, Untied ((x : ℝ) / 100)) (cr : ∀ x ∈ qr, Untied ((x : ℝ) / 100)) {P : Path} (hP : P = profilePath p.d p.hg.x0 p.hg.x1 profile)
    {G : Geometry} (hG : P.IsGeometry (P.z (P.n - 1)) G) (g : P.Generic (P.z (P.n - 1)) G.dh) (pdh : 0 < G.dh) {z : ℂ}
    (hz : IsImpedance 15 0.005 (waveNumber p.fmhz) (decide (p.ipol ≠ 0)) z) {L : Link} (hL : L = P.link G (waveNumber p.fmhz) 314 z)
    (c : L.Clear (1000 * p.d)) :
    ∃ K δ₀ : ℝ, 0 ≤ K ∧ 0 < δ₀ ∧ ∀ δ : ℝ, 0 < δ → δ < δ₀ → ∀ (p' : PropSt ℝ) (profile' : List ℝ), NearLink δ p profile p' profile' →
      ∃ rows' msgs' r', itmlogicP2PAt qc qr p' profile' = .ok (rows', msgs', r') ∧
        List.Forall₂ (fun row row' => row'.reliability = row.reliability ∧ row'.confidence = row.confidence ∧
          |row'.distance_km - row.distance_km| ≤ K * δ ∧ |row'.loss - row.loss| ≤ K * δ) rows rows' := by
  obtain ⟨R, M, Q, run, len, each, -⟩ := C99_p2p
    (Pert.refining (fun δ (x : PropSt ℝ × List ℝ) => NearLink δ p profile x.1 x.2)) (U := fun i => i.input.1) (A := fun i => i.input.2)
    ⟨Pert.approx fun i => i.2.2.fmhz, Pert.approx fun i => i.2.2.d, ⟨Pert.approx fun i => i.2.2.hg0, Pert.approx fun i => i.2.2.hg1⟩,
      fun i => i.2.2.ipol, (Pert.seq fun i => i.2.2.z).len, (Pert.seq fun i => i.2.2.z).get⟩ u hf hd hl hg0 hg1 h cc cr hP hG g pdh hz hL c
  obtain ⟨K, K0, hK⟩ := rows_uniform (T := fun e (row row' : P2PRow ℝ) => row'.reliability = row.reliability ∧ row'.confidence = row.confidence ∧
      |row'.distance_km - row.distance_km| ≤ e ∧ |row'.loss - row.loss| ≤ e) (ε := Pert.size) (fun i => i.2.1)
    (fun h t => ⟨t.1, t.2.1, t.2.2.1.trans h, t.2.2.2.trans h⟩) len (fun j row hj => by
      obtain ⟨S, hS, a1, a2⟩ := each j row hj
      obtain ⟨K1, b1⟩ := Pert.bound a1
      obtain ⟨K2, b2⟩ := Pert.bound a2
      refine ⟨max K1 K2, ?_⟩
      filter_upwards [hS, b1, b2] with i s1 s2 s3
      have p0 : 0 ≤ i.size := le_of_lt i.2.1
      exact ⟨S i, s1.1, s1.2.1, s1.2.2, s2.trans (mul_le_mul_of_nonneg_right (le_max_left _ _) p0),
        s3.trans (mul_le_mul_of_nonneg_right (le_max_right _ _) p0)⟩)
  obtain ⟨δ₀, h0, hall⟩ := Pert.eventually (run.and hK)
  refine ⟨K, δ₀, K0, h0, fun δ hδ hδ' p' profile' near => ?_⟩
  obtain ⟨e, f⟩ := hall δ (p', profile') hδ hδ' near
  exact ⟨_, _, _, e, f⟩

/-- **C100** (area) The same of area predictions: frequency, antenna heights, terrain irregularity and the constants of the grid may be off. -/
theorem C100_area {p r : PropSt ℝ} {g : Grid ℝ} {qt ql : Int} {qc : List Int} {kst : Pair Int} {rows : List (AreaRow ℝ)} (u : Untouched p)
    (hf : 0 < p.fmhz) (h0 : 0 < p.hg.x0) (h1 : 0 < p.hg.x1) (hd : 0 < p.dh) (h : itmlogicAreaAt qt ql qc g kst p = .ok (rows, r))
    (ct : Untied ((qt : ℝ) / 100)) (cl : Untied ((ql : ℝ) / 100)) (cc : ∀ x ∈ qc, Untied ((x : ℝ) / 100)) (hq : qc ≠ []) (cg : GridClear g)
    (c0 : SiteClear kst.x0 p.hg.x0) (c1 : SiteClear kst.x1 p.hg.x1) {L : Link}
    (hL : L = roughLink p.fmhz p.dh p.hg.x0 p.hg.x1 301 kst.x0 kst.x1 (lossless p.fmhz (decide (p.ipol ≠ 0))))
    (cr : ∀ row ∈ rows, L.Clear (1000 * row.distance_km)) :
    ∃ K δ₀ : ℝ, 0 ≤ K ∧ 0 < δ₀ ∧ ∀ δ : ℝ, 0 < δ → δ < δ₀ → ∀ (p' : PropSt ℝ) (g' : Grid ℝ), NearUser δ p g p' g' →
      ∃ rows' r', itmlogicAreaAt qt ql qc g' kst p' = .ok (rows', r') ∧
        List.Forall₂ (fun row row' => row'.confidence = row.confidence ∧ |row'.distance_km - row.distance_km| ≤ K * δ ∧
          |row'.loss - row.loss| ≤ K * δ) rows rows' := by
  obtain ⟨R, Q, run, len, each⟩ := C97_area
    (Pert.refining (fun δ (x : PropSt ℝ × Grid ℝ) => NearUser δ p g x.1 x.2)) (P := fun i => i.input.1) (G := fun i => i.input.2)
    ⟨Pert.approx fun i => i.2.2.fmhz, Pert.approx fun i => i.2.2.hg0, Pert.approx fun i => i.2.2.hg1, Pert.approx fun i => i.2.2.dh,
      fun i => i.2.2.ipol⟩ u
    ⟨Pert.approx fun i => i.2.2.d0, Pert.approx fun i => i.2.2.d1, Pert.approx fun i => i.2.2.ds1, Pert.approx fun i => i.2.2.d2,
      Pert.approx fun i => i.2.2.ds2⟩ hf h0 h1 hd h ct cl cc hq cg c0 c1 hL cr
  obtain ⟨K, K0, hK⟩ := rows_uniform (T := fun e (row row' : AreaRow ℝ) => row'.confidence = row.confidence ∧
      |row'.distance_km - row.distance_km| ≤ e ∧ |row'.loss - row.loss| ≤ e) (ε := Pert.size) (fun i => i.2.1)
    (fun h t => ⟨t.1, t.2.1.trans h, t.2.2.trans h⟩) len (fun j row hj => by
      obtain ⟨S, hS, a1, a2⟩ := each j row hj
      obtain ⟨K1, b1⟩ := Pert.bound a1
      obtain ⟨K2, b2⟩ := Pert.bound a2
      refine ⟨max K1 K2, ?_⟩
      filter_upwards [hS, b1, b2] with i s1 s2 s3
      have p0 : 0 ≤ i.size := le_of_lt i.2.1
      exact ⟨S i, s1.1, s1.2, s2.trans (mul_le_mul_of_nonneg_right (le_max_left _ _) p0),
        s3.trans (mul_le_mul_of_nonneg_right (le_max_right _ _) p0)⟩)
  obtain ⟨δ₀, h0, hall⟩ := Pert.eventually (run.and hK)
  refine ⟨K, δ₀, K0, h0, fun δ hδ hδ' p' g' near => ?_⟩
  obtain ⟨e, f⟩ := hall δ (p', g') hδ hδ' near
  exact ⟨_, _, e, f⟩

/-- **C100** (campaign) The same of the measurement campaign: terrain and distances may be off. -/
theorem C100_pimter {p : PropSt ℝ} {terrain surface distance : List ℝ} {qr qc : Int} {rows : List (PimterRow ℝ)} (u : Untouched p) {d0 d1 : ℝ} {tl : List ℝ}
    (hdis : distance = d0 :: d1 :: tl) (hx : d0 < d1) (hl : distance.length ≤ terrain.length)
    (h : runItmlogicPimterAt qr qc terrain surface distance p = .ok rows) (cr : Untied (qr : ℝ)) (cc : Untied (qc : ℝ)) {P : ℝ → Path}
    (hP : ∀ y, P y = campaignPath (tl.length + 1) (d1 - d0) terrain y) {G : ℝ → Geometry}
    (hG : ∀ y, CampaignHeight y → (P y).IsGeometry ((P y).z ((P y).n - 1)) (G y)) (g : ∀ y, CampaignHeight y → (P y).Generic ((P y).z ((P y).n - 1)) (G y).dh)
    (pdh : ∀ y, CampaignHeight y → 0 < (G y).dh) {z : ℂ} (hz : IsImpedance 15 0.005 (waveNumber 2488) true z)
    (c : ∀ y, CampaignHeight y → ((P y).link (G y) (waveNumber 2488) 314 z).Clear (P y).len) :
    ∃ K δ₀ : ℝ, 0 ≤ K ∧ 0 < δ₀ ∧ ∀ δ : ℝ, 0 < δ → δ < δ₀ → ∀ (p' : PropSt ℝ) (terrain' surface' distance' : List ℝ), Within δ terrain terrain' →
      Within δ distance distance' → ∃ rows', runItmlogicPimterAt qr qc terrain' surface' distance' p' = .ok rows' ∧
        List.Forall₂ (fun row row' => row'.reliability = row.reliability ∧ |row'.hg - row.hg| ≤ K * δ ∧ |row'.loss - row.loss| ≤ K * δ) rows rows' := by
  obtain ⟨R, run, len, each⟩ := C92_pimter
    (Pert.refining (fun δ (x : PropSt ℝ × List ℝ × List ℝ × List ℝ) => Within δ terrain x.2.1 ∧ Within δ distance x.2.2.1))
    (U := fun i => i.input.1) (T := fun i => i.input.2.1) (D := fun i => i.input.2.2.1) (V := fun i => i.input.2.2.2) u
    (Pert.seq fun i => i.2.2.1) (Pert.seq fun i => i.2.2.2) hdis hx hl h cr cc hP hG g pdh hz c
  obtain ⟨K, K0, hK⟩ := rows_uniform (T := fun e (row row' : PimterRow ℝ) => row'.reliability = row.reliability ∧
      |row'.hg - row.hg| ≤ e ∧ |row'.loss - row.loss| ≤ e) (ε := Pert.size) (fun i => i.2.1)
    (fun h t => ⟨t.1, t.2.1.trans h, t.2.2.trans h⟩) len (fun j row hj => by
      obtain ⟨S, hS, -, a1, a2⟩ := each j row hj
      obtain ⟨K1, b1⟩ := Pert.bound a1
      obtain ⟨K2, b2⟩ := Pert.bound a2
      refine ⟨max K1 K2, ?_⟩
      filter_upwards [hS, b1, b2] with i s1 s2 s3
      have p0 : 0 ≤ i.size := le_of_lt i.2.1
      exact ⟨S i, s1.1, s1.2, s2.trans (mul_le_mul_of_nonneg_right (le_max_left _ _) p0),
        s3.trans (mul_le_mul_of_nonneg_right (le_max_right _ _) p0)⟩)
  obtain ⟨δ₀, h0, hall⟩ := Pert.eventually (run.and hK)
  refine ⟨K, δ₀, K0, h0, fun δ hδ hδ' p' terrain' surface' distance' near near' => ?_⟩
  obtain ⟨e, f⟩ := hall δ (p', terrain', distance', surface') hδ hδ' ⟨near, near'⟩
  exact ⟨_, e, f⟩

/-- **C100** (quantiles) The same of `avar`, for all deviates and all codes with situation variability, without any condition of general position. -/
theorem C100_quantile {p q : PropSt ℝ} {a zt zl zc : ℝ} {k md m : ℤ} {noLoc : Bool} (hl : p.lvar = 5) (hk : p.klim = some k) (hc : ClimateCode k)
    (hmd : p.mdvar = some md) (hm : ModeCode md m noLoc false) (pd : 0 < p.dist) (pw : 0 < p.wn) (p0 : 0 < p.he.x0) (p1 : 0 < p.he.x1)
    (ph : 0 ≤ p.dh) (h : avar zt zl zc p = .ok (a, q)) :
    ∃ K δ₀ : ℝ, 0 < δ₀ ∧ ∀ δ : ℝ, 0 < δ → δ < δ₀ → ∀ (p' : PropSt ℝ) (zt' zl' zc' : ℝ), NearStat δ p p' → |zt' - zt| ≤ δ → |zl' - zl| ≤ δ →
      |zc' - zc| ≤ δ → ∃ a' q', avar zt' zl' zc' p' = .ok (a', q') ∧ |a' - a| ≤ K * δ := by
  obtain ⟨_, _, _, _, _, ar, _, _, _, har, -⟩ := avar_real (cacheInv_reach (by omega) (.refl : Reach p p)) h
  have e : a = quantile k m noLoc false p.dist p.dh p.he.x0 p.he.x1 p.wn ar zt zl zc := C56_avar_formula hl .refl hk hc hmd hm har h
  obtain ⟨A, Q, run, ap⟩ := C96_quantile
    (Pert.refining (fun δ (x : PropSt ℝ × ℝ × ℝ × ℝ) => NearStat δ p x.1 ∧ |x.2.1 - zt| ≤ δ ∧ |x.2.2.1 - zl| ≤ δ ∧ |x.2.2.2 - zc| ≤ δ))
    (P := fun i => i.input.1) (R := fun i => i.input.1.aref.getD 0) (X := fun i => i.input.2.1) (Y := fun i => i.input.2.2.1) (Z := fun i => i.input.2.2.2)
    (k := k) (md := md) (m := m) (noLoc := noLoc) (d := p.dist) (dh := p.dh) (h₀ := p.he.x0) (h₁ := p.he.x1) (w := p.wn) (ar := ar)
    (Eventually.of_forall fun i => i.2.2.1.lvar) (Eventually.of_forall fun i => i.2.2.1.klim.trans hk) hc
    (Eventually.of_forall fun i => i.2.2.1.mdvar.trans hmd) hm
    (Eventually.of_forall fun i => by obtain ⟨b, b', -, e, -⟩ := i.2.2.1.aref; show i.1.2.1.aref = some (i.1.2.1.aref.getD 0); rw [e]; rfl)
    (Pert.approx fun i => by
      obtain ⟨b, b', e, e', hb⟩ := i.2.2.1.aref
      rw [har, Option.some.injEq] at e
      show |i.1.2.1.aref.getD 0 - ar| ≤ i.1.1
      rw [e', e]; exact hb)
    (Pert.approx fun i => i.2.2.1.dist) (Pert.approx fun i => i.2.2.1.dh) (Pert.approx fun i => i.2.2.1.wn) (Pert.approx fun i => i.2.2.1.he0)
    (Pert.approx fun i => i.2.2.1.he1) (Pert.approx fun i => i.2.2.2.1) (Pert.approx fun i => i.2.2.2.2.1) (Pert.approx fun i => i.2.2.2.2.2) pd pw p0 p1 ph
  obtain ⟨K, hK⟩ := Pert.bound ap
  obtain ⟨δ₀, h0, hall⟩ := Pert.eventually (run.and hK)
  refine ⟨K, δ₀, h0, fun δ hδ hδ' p' zt' zl' zc' near b1 b2 b3 => ?_⟩
  obtain ⟨e1, e2⟩ := hall δ (p', zt', zl', zc') hδ hδ' ⟨near, b1, b2, b3⟩
  exact ⟨_, _, e1, by rw [e]; exact e2⟩

/-! The predictions of C99, C97 and C92 with inputs that are off, and the median of the demo dictionary. -/

example : ∃ rows msgs r, itmlogicP2P mesaUser (mesaZ 0 250) = .ok (rows, msgs, r) ∧ rows.length = 15 ∧
    ∃ K δ₀ : ℝ, 0 ≤ K ∧ 0 < δ₀ ∧ ∀ δ : ℝ, 0 < δ → δ < δ₀ → ∀ (p' : PropSt ℝ) (profile' : List ℝ), NearLink δ mesaUser (mesaZ 0 250) p' profile' →
      ∃ rows' msgs' r', itmlogicP2P p' profile' = .ok (rows', msgs', r') ∧
        List.Forall₂ (fun row row' => row'.reliability = row.reliability ∧ row'.confidence = row.confidence ∧
          |row'.distance_km - row.distance_km| ≤ K * δ ∧ |row'.loss - row.loss| ≤ K * δ) rows rows' := by
  obtain ⟨G, z, L, rows, msgs, r, hG, hz, hL, W, pdh, c, h⟩ := mesa_run
  refine ⟨rows, msgs, r, h, (C42_shipped (show itmlogicP2P mesaUser (mesaZ 0 250) = .ok (rows, msgs, r) from h)).1, ?_⟩
  exact C100_p2p ⟨rfl, rfl, rfl, rfl, rfl, rfl, rfl⟩ (show (0 : ℝ) < 19080 by norm_num) (show (0 : ℝ) < 66 by norm_num) (by show 2 ≤ 34; omega)
    (show (0 : ℝ) < 30 by norm_num) (show (0 : ℝ) < 30 by norm_num) h untied_p2p.1 untied_p2p.2 mesa_profile.symm hG (mesa_generic _ _) pdh hz hL c

/-- Inputs that are off exist. -/
example (δ : ℝ) (h : 0 < δ) : NearLink δ mesaUser (mesaZ 0 250) { mesaUser with fmhz := 19080 + δ, hg := ⟨30 - δ, 30⟩ } (mesaZ δ 250) := by
  refine ⟨?_, ?_, ?_, ?_, rfl, ?_⟩
  · show |19080 + δ - 19080| ≤ δ; rw [add_sub_cancel_left, abs_of_pos h]
  · show |mesaUser.d - mesaUser.d| ≤ δ; rw [sub_self, abs_zero]; exact h.le
  · show |30 - δ - 30| ≤ δ; rw [show (30 - δ - 30 : ℝ) = -δ by ring, abs_neg, abs_of_pos h]
  · show |(30 : ℝ) - 30| ≤ δ; rw [sub_self, abs_zero]; exact h.le
  · have e0 : |δ - 0| ≤ δ := by rw [sub_zero, abs_of_pos h]
    have e1 : |(250 : ℝ) - 250| ≤ δ := by rw [sub_self, abs_zero]; exact h.le
    unfold Within mesaZ
    simp only [List.replicate, List.cons_append, List.nil_append, List.forall₂_cons, List.forall₂_nil_left_iff, e0, e1, and_self]

example : ∃ rows r, itmlogicAreaAt 50 50 areaQc beamGrid ⟨0, 0⟩ beamUser = .ok (rows, r) ∧ rows ≠ [] ∧
    ∃ K δ₀ : ℝ, 0 ≤ K ∧ 0 < δ₀ ∧ ∀ δ : ℝ, 0 < δ → δ < δ₀ → ∀ (p' : PropSt ℝ) (g' : Grid ℝ), NearUser δ beamUser beamGrid p' g' →
      ∃ rows' r', itmlogicAreaAt 50 50 areaQc g' ⟨0, 0⟩ p' = .ok (rows', r') ∧
        List.Forall₂ (fun row row' => row'.confidence = row.confidence ∧ |row'.distance_km - row.distance_km| ≤ K * δ ∧
          |row'.loss - row.loss| ≤ K * δ) rows rows' := by
  obtain ⟨rows, r, h⟩ := beam_run
  obtain ⟨ne, ge⟩ := beam_rows h
  refine ⟨rows, r, h, ne, ?_⟩
  exact C100_area (L := beam) ⟨rfl, rfl, rfl, rfl, rfl, rfl, rfl⟩ (show (0 : ℝ) < 19080 by norm_num) (show (0 : ℝ) < 30 by norm_num)
    (show (0 : ℝ) < 30 by norm_num) (show (0 : ℝ) < 30 by norm_num) h (.inl (by norm_num)) (.inl (by norm_num)) untied_area (by decide)
    beamGrid_clear.1 (fun w => absurd w (by decide)) (fun w => absurd w (by decide)) rfl (fun row hm => beam_clear (by linarith [ge row hm]))

example : ∃ rows, runItmlogicPimter (plateauZ 0 1000) [] plateauD (blank 1 hillIn) = .ok rows ∧
    ∃ K δ₀ : ℝ, 0 ≤ K ∧ 0 < δ₀ ∧ ∀ δ : ℝ, 0 < δ → δ < δ₀ → ∀ (p' : PropSt ℝ) (terrain' surface' distance' : List ℝ), Within δ (plateauZ 0 1000) terrain' →
      Within δ plateauD distance' → ∃ rows', runItmlogicPimter terrain' surface' distance' p' = .ok rows' ∧
        List.Forall₂ (fun row row' => row'.reliability = row.reliability ∧ |row'.hg - row.hg| ≤ K * δ ∧ |row'.loss - row.loss| ≤ K * δ) rows rows' := by
  obtain ⟨G, z, rows, tl, hdis, htl, hl, hz, hG, W, h⟩ := plateau_run
  refine ⟨rows, h, ?_⟩
  exact C100_pimter ⟨rfl, rfl, rfl, rfl, rfl, rfl, rfl⟩ hdis (by norm_num) hl h untied_campaign untied_campaign (P := plateauPath)
    (fun y => by rw [htl, sub_zero]; rfl) hG (fun y c => plateau_generic c _ _) (fun y c => lt_of_lt_of_le (by norm_num) (W y c).dh) hz
    (fun y c => (W y c).clear (by rw [(plateau_ends y).2.2]; norm_num))

/-- At the median, where the code changes from one deviation to the other. -/
example : ∃ a q, avar 0 0 0 demo = .ok (a, q) ∧ ∃ K δ₀ : ℝ, 0 < δ₀ ∧ ∀ δ : ℝ, 0 < δ → δ < δ₀ → ∀ (p' : PropSt ℝ) (zt' zl' zc' : ℝ), NearStat δ demo p' →
    |zt' - 0| ≤ δ → |zl' - 0| ≤ δ → |zc' - 0| ≤ δ → ∃ a' q', avar zt' zl' zc' p' = .ok (a', q') ∧ |a' - a| ≤ K * δ := by
  have m2 : ModeCode 12 2 true false := ⟨by decide, by decide, rfl⟩
  obtain ⟨q, h⟩ := C56_avar_answers (p₀ := demo) (p := demo) (zt := 0) (zl := 0) (zc := 0) (ar := 20) (k := 5) (md := 12)
    (m := 2) (noLoc := true) (noSit := false) rfl .refl rfl ⟨by decide, by decide⟩ rfl m2 rfl
    (by norm_num [demo]) (by norm_num [demo]) (by norm_num [demo]) (by norm_num [demo]) (by norm_num [demo])
  exact ⟨_, q, h, C100_quantile rfl rfl ⟨by decide, by decide⟩ rfl m2 (by norm_num [demo]) (by norm_num [demo]) (by norm_num [demo]) (by norm_num [demo])
    (by norm_num [demo]) h⟩

end Itm.Props

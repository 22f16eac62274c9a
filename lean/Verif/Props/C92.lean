import Verif.Lemmas.RefinePimter
import Verif.Lemmas.PlateauPath
import Verif.Props.C69
import Verif.Props.C99

/-! C92: with growing precision, the measurement-campaign program approaches the exact one. -/

namespace Itm.Props
open Itm Itm.Spec Filter Asymptotics Topology

variable {ι : Type} {l : Filter ι} {α : ι → Type} [∀ i, PyNum (α i)] {ε : ι → ℝ}

/-- What the loop over heights starts from. -/
theorem pimter_start {p s : PropSt ℝ} {terrain distance : List ℝ} {d0 d1 : ℝ} {tl : List ℝ} (hdis : distance = d0 :: d1 :: tl)
    (hs : pimterSetup p terrain distance = .ok s) :
    s.pfl = { np := (tl.length + 1 : ℕ), xi := d1 - d0, z := terrain } ∧ s.gme = curvature 314 ∧ 0 < s.gme ∧ s.hg.x0 = 2.56 ∧ s.wn = waveNumber 2488 ∧ s.ens = 314 ∧
      0 < s.zgnd.re ∧ IsImpedance 15 0.005 (waveNumber 2488) true s.zgnd.toC := by
  rw [pimterSetup_eq, hdis] at hs
  obtain ⟨y1, g1, hs⟩ := bind_eq_ok.1 hs
  obtain ⟨y0, g0, hs⟩ := bind_eq_ok.1 hs
  obtain ⟨yn, -, hs⟩ := bind_eq_ok.1 hs
  obtain ⟨zg, hzg, hs⟩ := bind_eq_ok.1 hs
  rw [pure_ok, ok_inj] at hs
  obtain rfl : d1 = y1 := ok_inj.1 (by rw [← g1]; rfl)
  obtain rfl : d0 = y0 := ok_inj.1 (by rw [← g0]; rfl)
  have ew : (2.488 * 1000.0 / 47.7 : ℝ) = waveNumber 2488 := by unfold waveNumber; norm_num
  have eN : (314.0 : ℝ) = 314 := by norm_num
  have hκ := (curvature_range (n := 314.0) (by norm_num) (by norm_num)).1
  have pw : 0 < waveNumber 2488 := by unfold waveNumber; norm_num
  unfold pimterGround groundZq at hzg
  rw [ew, bind_assoc] at hzg
  obtain ⟨x, hx, hzg⟩ := bind_eq_ok.1 hzg
  obtain ⟨-, rfl⟩ := pyDiv_eq_ok.1 hx
  rw [pure_bind'] at hzg
  rw [← hs]
  refine ⟨by simp, by rw [effCurvature_real, eN], by linarith, rfl, ew, eN, ?_, ?_⟩
  · exact ground_pos (x := 376.62 * 0.005 / waveNumber 2488) (by positivity) (ipol := 1) (by rw [if_pos (by decide)]; exact hzg)
  · obtain ⟨s1, s2, s3⟩ := sqrt_impedance (waveNumber 2488)
    refine ⟨_, s1, s2, ?_⟩
    rw [if_pos rfl, toC_div hzg, ← s3]

/-- The path and the link of a turn. -/
theorem pimter_turn {s0 s q : PropSt ℝ} {terrain : List ℝ} {n : ℕ} {ξ y : ℝ} (hn : 1 ≤ n) (hξ : 0 < ξ) (hl : n < terrain.length) (py : 0 < y)
    (e1 : s0.pfl = { np := n, xi := ξ, z := terrain }) (e2 : s0.gme = curvature 314) (e3 : 0 < s0.gme) (e4 : s0.hg.x0 = 2.56) (e5 : s0.wn = waveNumber 2488)
    (e6 : s0.ens = 314) (R : PimterRel s0 s) (hq : qlrpflPrep (atHeight y s) = .ok q) {P : Path} (hP : P = campaignPath n ξ terrain y) :
    pathOf (atHeight y s) n = P ∧ s.pfl.z.getD (n - 1) 0 = P.z (P.n - 1) ∧ q.dist = P.len ∧ P.IsGeometry (P.z (P.n - 1)) (geometryOf q) ∧
      linkOf q = P.link (geometryOf q) (waveNumber 2488) 314 s0.zgnd.toC := by
  obtain ⟨t, ht⟩ : ∃ t, t = atHeight y s := ⟨_, rfl⟩
  rw [← ht] at hq ⊢
  have f1 : t.pfl = { np := n, xi := ξ, z := terrain } := by rw [ht, ← e1, R.pfl]; rfl
  have f2 : t.gme = curvature 314 := by rw [ht, ← e2, R.gme]; rfl
  have f3 : t.hg = ⟨2.56, y⟩ := by rw [ht, ← e4, R.hg0]; rfl
  have f4 : t.wn = waveNumber 2488 := by rw [ht, ← e5, R.wn]; rfl
  have f5 : t.ens = 314 := by rw [ht, ← e6, R.ens]; rfl
  have f6 : t.zgnd = s0.zgnd := by rw [ht, R.zgnd]; rfl
  have f7 : 0 < t.gme := by rw [f2, ← e2]; exact e3
  have hpath : pathOf t n = P := by
    rw [hP]
    unfold pathOf campaignPath
    simp only [f1, f2, f3]
  have h1 : t.pfl.np = n := by rw [f1]
  have h2 : 0 < t.pfl.xi := by rw [f1]; exact hξ
  have h3 : n < t.pfl.z.length := by rw [f1]; exact hl
  have h4 : 0 < t.hg.x0 := by rw [f3]; norm_num
  have h5 : 0 < t.hg.x1 := by rw [f3]; exact py
  have hG := C58_clear_shifted hn h1 h2 h3 h4 h5 f7 hq
  obtain ⟨t', e, PR⟩ := qlrpflPrep_ok hn h1 h2 h3 h4 h5 f7
  rw [hq, ok_inj] at e
  subst e
  have hr := PR.rest
  have hPz : s.pfl.z.getD (n - 1) 0 = P.z (P.n - 1) := by rw [← R.pfl, e1, hP]; rfl
  rw [hpath] at hG
  refine ⟨hpath, hPz, ?_, ?_, ?_⟩
  · rw [hr, hP, f1]; rfl
  · have : t.pfl.z.getD (n - 1) 0 = P.z (P.n - 1) := by rw [f1, hP]; rfl
    rw [← this]; exact hG
  · have hmdp : q.mdp = -1 := by rw [hr]
    unfold linkOf Path.link geometryOf
    rw [hmdp]
    have g1 : q.hg = ⟨2.56, y⟩ := by rw [hr]; exact f3
    have g2 : q.wn = waveNumber 2488 := by rw [hr]; exact f4
    have g3 : q.ens = 314 := by rw [hr]; exact f5
    have g4 : q.gme = P.κ := by rw [hr, hP]; exact f2
    have g5 : q.zgnd = s0.zgnd := by rw [hr]; exact f6
    have g6 : P.hg₀ = 2.56 ∧ P.hg₁ = y := by rw [hP]; exact ⟨rfl, rfl⟩
    simp only [g1, g2, g3, g4, g5, g6.1, g6.2, Cx.toC]
    rfl

theorem refine_deviate (F : Refining l α ε) (q : Int) (c : Untied (q : ℝ)) :
    Follows l (ListApx l F.Approx) (fun i => qerfi [(PyNum.ofInt q : α i)]) (qerfi [(PyNum.ofInt q : ℝ)]) := by
  unfold qerfi
  simp only [List.mapM_cons, List.mapM_nil]
  have h : F.Approx (fun i => (PyNum.ofInt q : α i)) (PyNum.ofInt q : ℝ) := by rw [rofInt]; exact Refining.Approx.whole F q
  refine Follows.bind (refine_qerfi1 h (by rw [rofInt]; exact c)) (fun A a _ hA => ?_)
  exact Follows.bind (Follows.pure (Q := ListApx l F.Approx) ListApx.nil) (fun B b _ hB => Follows.pure (ListApx.cons hA hB))

theorem refine_heights (F : Refining l α ε) (L : List ℕ) :
    ListApx l F.Approx (fun i => L.map fun (k : Nat) => (PyNum.ofInt (10 + (k : Int)) : α i)) (L.map fun (k : Nat) => (PyNum.ofInt (10 + (k : Int)) : ℝ)) := by
  induction L with
  | nil => exact ListApx.nil
  | cons k L ih =>
    refine ListApx.cons ?_ ih
    dsimp only
    rw [rofInt]; exact Refining.Approx.whole F _

/-- **C92** The campaign program in arithmetics that grow precise: terrain and distances are approximated, the deviates of the two levels are
not at a switch, and for none of the heights 10 … 130 m the path or the link that follows from it sits at a threshold. If the exact
program returns, the programs finally return too, with as many rows, for the same level, and frequencies, heights and losses approach
the exact ones as fast as the arithmetics grow precise; although every row is computed in the dictionary the row before it left. -/
theorem C92_pimter (F : Refining l α ε) {U : ∀ i, PropSt (α i)} {p : PropSt ℝ} {T V D : ∀ i, List (α i)} {terrain surface distance : List ℝ} {qr qc : Int}
    {rows : List (PimterRow ℝ)} (u : Untouched p) (hT : SeqApx F T terrain) (hD : SeqApx F D distance) {d0 d1 : ℝ} {tl : List ℝ} (hdis : distance = d0 :: d1 :: tl)
    (hx : d0 < d1) (hl : distance.length ≤ terrain.length) (h : runItmlogicPimterAt qr qc terrain surface distance p = .ok rows)
    (cr : Untied (qr : ℝ)) (cc : Untied (qc : ℝ)) {P : ℝ → Path} (hP : ∀ y, P y = campaignPath (tl.length + 1) (d1 - d0) terrain y) {G : ℝ → Geometry}
    (hG : ∀ y, CampaignHeight y → (P y).IsGeometry ((P y).z ((P y).n - 1)) (G y)) (g : ∀ y, CampaignHeight y → (P y).Generic ((P y).z ((P y).n - 1)) (G y).dh)
    (pdh : ∀ y, CampaignHeight y → 0 < (G y).dh) {z : ℂ} (hz : IsImpedance 15 0.005 (waveNumber 2488) true z)
    (c : ∀ y, CampaignHeight y → ((P y).link (G y) (waveNumber 2488) 314 z).Clear (P y).len) :
    ∃ R : ∀ i, List (PimterRow (α i)), (∀ᶠ i in l, runItmlogicPimterAt qr qc (T i) (V i) (D i) (U i) = .ok (R i)) ∧ (∀ᶠ i in l, (R i).length = rows.length) ∧
      ∀ (j : ℕ) (row : PimterRow ℝ), rows[j]? = some row → ∃ S : ∀ i, PimterRow (α i),
        (∀ᶠ i in l, (R i)[j]? = some (S i) ∧ (S i).reliability = row.reliability) ∧
        F.Approx (fun i => (S i).fmhz) row.fmhz ∧ F.Approx (fun i => (S i).hg) row.hg ∧ F.Approx (fun i => (S i).loss) row.loss := by
  have key : Follows l (ListApx l (CampRowApx F)) (fun i => runItmlogicPimterAt qr qc (T i) (V i) (D i) (U i)) (runItmlogicPimterAt qr qc terrain surface distance p) := by
    unfold runItmlogicPimterAt
    refine Follows.bind (refine_deviate F qr cr) (fun A a _ hA => ?_)
    refine Follows.bind (refine_deviate F qc cc) (fun B b _ hB => ?_)
    refine Follows.bind (refine_pimterSetup u hT hD) (fun S s hs hS => ?_)
    refine Follows.bind (refine_get hA) (fun X x _ hX => ?_)
    refine Follows.bind (refine_get hB) (fun Z w _ hZ => ?_)
    obtain ⟨e1, e2, e3, e4, e5, e6, e7, e8⟩ := pimter_start hdis hs
    have pw : 0 < waveNumber 2488 := by unfold waveNumber; norm_num
    have hl' : tl.length + 1 < terrain.length := by rw [hdis] at hl; simp only [List.length_cons] at hl; omega
    refine refine_pimterLoop (n := tl.length + 1) (by omega) (by rw [e1]) (by rw [e1]; show 0 < d1 - d0; linarith) (by rw [e1]; exact hl') (by rw [e4]; norm_num) e3
      (by rw [e5]; exact pw) e7 qr hX hZ (refine_heights F (List.range 121)) hS (.refl s) ?_
    intro y hy t R
    obtain ⟨k, hk, rfl⟩ := List.mem_map.1 hy
    have hk' := List.mem_range.1 hk
    have ey : (PyNum.ofInt (10 + (k : Int)) : ℝ) = 10 + (k : ℝ) := by rw [rofInt]; push_cast; rfl
    rw [ey]
    have hc : CampaignHeight (10 + (k : ℝ)) := ⟨k, by omega, rfl⟩
    have py : (0 : ℝ) < 10 + k := by positivity
    refine ⟨py, fun q hq => ?_⟩
    obtain ⟨k1, k2, k3, k4, k5⟩ := pimter_turn (by omega) (by linarith) hl' py e1 e2 e3 e4 e5 e6 R hq (hP _)
    have hPn : 1 ≤ (P (10 + (k : ℝ))).n := by rw [hP]; show 1 ≤ tl.length + 1; omega
    have hPx : 0 < (P (10 + (k : ℝ))).ξ := by rw [hP]; show 0 < d1 - d0; linarith
    have eG : G (10 + (k : ℝ)) = geometryOf q := C58_determined hPn hPx k4 (hG _ hc)
    have ez : s.zgnd.toC = z := impedance_unique (by norm_num) e8 hz
    have ed : q.dh = (G (10 + (k : ℝ))).dh := by rw [eG]; rfl
    refine ⟨?_, ?_, ?_⟩
    · rw [k1, k2, ed]; exact g _ hc
    · rw [ed]; exact pdh _ hc
    · rw [k5, k3, ez, ← eG]; exact c _ hc
  obtain ⟨B, hB, h1⟩ := key _ h
  refine ⟨B, hB, h1.length, fun j row hj => ?_⟩
  obtain ⟨S, s1, s2⟩ := h1.get hj
  refine ⟨S, ?_, s2.fmhz, s2.hg, s2.loss⟩
  filter_upwards [s1, s2.reliability] with i a b
  exact ⟨a, b⟩

/-- **C92** (published loss) The limits are the published losses of the links the terrain and the heights describe, in climate 5, individual
mode without location variability, for the deviates the program uses; these belong to the percentages read as fractions (`C06_refuted`).
On a clear path the receiver stands at the height of the last point but one (`C40_refuted`). -/
theorem C92_published (F : Refining l α ε) {U : ∀ i, PropSt (α i)} {p : PropSt ℝ} {T V D : ∀ i, List (α i)} {terrain surface distance : List ℝ} {qr qc : Int}
    {rows : List (PimterRow ℝ)} (u : Untouched p) (hT : SeqApx F T terrain) (hD : SeqApx F D distance) {d0 d1 : ℝ} {tl : List ℝ} (hdis : distance = d0 :: d1 :: tl)
    (hx : d0 < d1) (hl : distance.length ≤ terrain.length) (h : runItmlogicPimterAt qr qc terrain surface distance p = .ok rows)
    (cr : Untied (qr : ℝ)) (cc : Untied (qc : ℝ)) {P : ℝ → Path} (hP : ∀ y, P y = campaignPath (tl.length + 1) (d1 - d0) terrain y) {G : ℝ → Geometry}
    (hG : ∀ y, CampaignHeight y → (P y).IsGeometry ((P y).z ((P y).n - 1)) (G y)) (g : ∀ y, CampaignHeight y → (P y).Generic ((P y).z ((P y).n - 1)) (G y).dh)
    (pdh : ∀ y, CampaignHeight y → 0 < (G y).dh) {z : ℂ} (hz : IsImpedance 15 0.005 (waveNumber 2488) true z)
    (c : ∀ y, CampaignHeight y → ((P y).link (G y) (waveNumber 2488) 314 z).Clear (P y).len) :
    ∃ (R : ∀ i, List (PimterRow (α i))) (zr zc : ℝ), (∀ᶠ i in l, runItmlogicPimterAt qr qc (T i) (V i) (D i) (U i) = .ok (R i) ∧ (R i).length = 121) ∧
      qerfi [(qr : ℝ)] = .ok [zr] ∧ qerfi [(qc : ℝ)] = .ok [zc] ∧
      ∀ k : ℕ, k ≤ 120 → ∃ S : ∀ i, PimterRow (α i), (∀ᶠ i in l, (R i)[k]? = some (S i) ∧ (S i).reliability = qr) ∧
        F.Approx (fun i => (S i).fmhz) 2488 ∧ F.Approx (fun i => (S i).hg) (10 + k) ∧
        F.Approx (fun i => (S i).loss) (((P (10 + k)).link (G (10 + k)) (waveNumber 2488) 314 z).loss 5 1 true false (P (10 + k)).len zr 0 zc) := by
  obtain ⟨R, a, b, k⟩ := C92_pimter F (U := U) (V := V) u hT hD hdis hx hl h cr cc hP hG g pdh hz c
  obtain ⟨zr, zc, h1, h2, H⟩ := C59_pimter_shifted hdis hx hl h
  obtain ⟨s, zr', zc', -, -, -, hf⟩ := C52_rows ordered_real h
  have len : rows.length = 121 := by rw [← hf.length_eq, List.length_range]
  refine ⟨R, zr, zc, ?_, h1, h2, fun m hm => ?_⟩
  · filter_upwards [a, b] with i e1 e2
    exact ⟨e1, e2.trans len⟩
  have hm' : m < rows.length := by omega
  obtain ⟨S, s1, s2, s3, s4⟩ := k m rows[m] (List.getElem?_eq_getElem hm')
  have rm := hf.get (i := m) (by simp; omega) (by simpa using hm')
  simp only [List.get_eq_getElem, List.getElem_range] at rm
  obtain ⟨r1, r2, r3, -⟩ := rm
  have eh : rows[m].hg = 10 + (m : ℝ) := by rw [r1, rofInt]; push_cast; rfl
  obtain ⟨P', b1, b2, b3, b4, b5, b6, G', z', hG', hz', E⟩ := H rows[m] (List.getElem_mem hm')
  have hc : CampaignHeight (10 + (m : ℝ)) := ⟨m, hm, rfl⟩
  obtain rfl : P' = P (10 + m) := by
    rw [hP]
    obtain ⟨n', ξ', κ', g0, g1, z'⟩ := P'
    dsimp only at b1 b2 b3 b4 b5 b6
    unfold campaignPath
    rw [b1, b2, b3, b4, b5, b6, eh]
  have hPn : 1 ≤ (P (10 + (m : ℝ))).n := by omega
  have hPx : 0 < (P (10 + (m : ℝ))).ξ := by rw [b2]; linarith
  have eG : G (10 + (m : ℝ)) = G' := C58_determined hPn hPx hG' (hG _ hc)
  obtain rfl := impedance_unique (by norm_num) hz hz'
  rw [← eG] at E
  have cl := c _ hc
  generalize hL : (P (10 + (m : ℝ))).link (G (10 + m)) (waveNumber 2488) 314 z = L at *
  have reg : L.Regular (P (10 + (m : ℝ))).len := by
    by_cases w : (P (10 + (m : ℝ))).len < L.dlsa
    · refine .inl ⟨?_, w⟩
      unfold Path.len
      have : (1 : ℝ) ≤ (P (10 + (m : ℝ))).n := by exact_mod_cast hPn
      positivity
    · have sc := cl.scatter (lt_of_le_of_ne (not_lt.1 w) cl.horizon.symm)
      exact .inr ⟨sc.h5.usable.imp le_of_lt le_of_lt, sc.h6.usable.imp le_of_lt le_of_lt⟩
  refine ⟨S, ?_, ?_, ?_, ?_⟩
  · filter_upwards [s1] with i e
    exact ⟨e.1, e.2.trans r2⟩
  · have : rows[m].fmhz = 2488 := by rw [r3]; norm_num
    rw [← this]; exact s2
  · rw [← eh]; exact s3
  · rw [← E L rfl reg]; exact s4

/-! The tableland of `PlateauPath`, the shipped levels, all 121 heights, numbers with `n` binary digits after the point. -/

theorem hastings_millionth : 47532.55 < hastings 1e-6 * 10000 ∧ hastings 1e-6 * 10000 < 47532.62 := by
  obtain ⟨l1, l2⟩ := Itm.log_ten_bounds
  unfold hastings
  dsimp only
  have e : -2 * Real.log 1e-6 = 12 * Real.log 10 := by
    rw [show (1e-6 : ℝ) = ((10 : ℝ) ^ 6)⁻¹ by norm_num, Real.log_inv, Real.log_pow]; push_cast; ring
  rw [e]
  have r1 : 5.2565205 ≤ √(12 * Real.log 10) := Real.le_sqrt_of_sq_le (by norm_num at *; linarith)
  have r2 : √(12 * Real.log 10) ≤ 5.2565229 := Real.sqrt_le_iff.2 ⟨by norm_num, by norm_num at *; linarith⟩
  generalize √(12 * Real.log 10) = r at *
  have s1 := pow_le_pow_left₀ (by norm_num) r1 2
  have s2 := pow_le_pow_left₀ (le_trans (by norm_num) r1) r2 2
  have t1 := pow_le_pow_left₀ (by norm_num) r1 3
  have t2 := pow_le_pow_left₀ (le_trans (by norm_num) r1) r2 3
  generalize r ^ 2 = r2' at *
  generalize r ^ 3 = r3 at *
  have p : 0 < 1 + 1.432788 * r + 0.189269 * r2' + 0.001308 * r3 := by norm_num at *; linarith
  have u : (2.515516698 + 0.802853 * r + 0.010328 * r2') / (1 + 1.432788 * r + 0.189269 * r2' + 0.001308 * r3) ≤ 0.503265 := by
    rw [div_le_iff₀ p]; norm_num at *; linarith
  have v : 0.503262 ≤ (2.515516698 + 0.802853 * r + 0.010328 * r2') / (1 + 1.432788 * r + 0.189269 * r2' + 0.001308 * r3) := by
    rw [le_div_iff₀ p]; norm_num at *; linarith
  generalize (2.515516698 + 0.802853 * r + 0.010328 * r2') / (1 + 1.432788 * r + 0.189269 * r2' + 0.001308 * r3) = f at *
  constructor <;> (norm_num at *; linarith)

theorem untied_campaign : Untied (((50 : ℤ) : ℝ)) := by
  obtain ⟨h1, h2⟩ := hastings_millionth
  refine .inr fun k e => ?_
  have t : tailOf ((50 : ℤ) : ℝ) = 1e-6 := by unfold tailOf; norm_num [abs_of_neg]
  rw [t] at e
  rw [e] at h1 h2
  have a : (47532 : ℝ) < k := by norm_num at *; linarith
  have b : (k : ℝ) < 47533 := by norm_num at *; linarith
  have a' : (47532 : ℤ) < k := by exact_mod_cast a
  have b' : k < (47533 : ℤ) := by exact_mod_cast b
  omega

/-- Distances of the samples of the tableland. -/
noncomputable def plateauD : List ℝ := (List.range 40).map fun j => (1700 : ℝ) * (j : ℕ)

theorem plateau_distances : ∃ tl, plateauD = 0 :: 1700 :: tl ∧ tl.length + 1 = 39 := by
  refine ⟨(List.range' 2 38).map fun j => (1700 : ℝ) * (j : ℕ), ?_, by simp⟩
  unfold plateauD
  rw [List.range_eq_range', show (40 : ℕ) = 38 + 1 + 1 from rfl, List.range'_succ, List.range'_succ]
  simp

theorem grid_seq (a : List ℝ) : SeqApx gridRefining (fun n => a.map fun x => (⟨grid n x⟩ : Fixed n)) a := by
  refine ⟨Eventually.of_forall fun n => by simp, fun j x h => ⟨fun n => ⟨grid n x⟩, Eventually.of_forall fun n => ?_, grid_approx x⟩⟩
  rw [List.getElem?_map, h]
  rfl

/-- The shipped campaign over the tableland. -/
theorem plateau_run : ∃ (G : ℝ → Geometry) (z : ℂ) (rows : List (PimterRow ℝ)) (tl : List ℝ), plateauD = 0 :: 1700 :: tl ∧ tl.length + 1 = 39 ∧
    plateauD.length ≤ (plateauZ (0 : ℝ) 1000).length ∧ IsImpedance 15 0.005 (waveNumber 2488) true z ∧
    (∀ y, CampaignHeight y → (plateauPath y).IsGeometry ((plateauPath y).z ((plateauPath y).n - 1)) (G y)) ∧
    (∀ y, CampaignHeight y → Plateau y ((plateauPath y).link (G y) (waveNumber 2488) 314 z)) ∧
    runItmlogicPimter (plateauZ 0 1000) [] plateauD (blank 1 hillIn) = .ok rows := by
  obtain ⟨tl, hdis, htl⟩ := plateau_distances
  have hx : (0 : ℝ) < 1700 := by norm_num
  have hl : plateauD.length ≤ (plateauZ (0 : ℝ) 1000).length := by
    rw [show plateauD.length = 40 by simp [plateauD]]; show 40 ≤ 40; omega
  have hl' : 39 < (plateauZ (0 : ℝ) 1000).length := by show 39 < 40; omega
  obtain ⟨s, hs, prep, run, -⟩ := C69_campaign 50 50 ([] : List ℝ) (blank 1 hillIn) hdis hx hl
  obtain ⟨e1, e2, e3, e4, e5, e6, e7, e8⟩ := pimter_start hdis hs
  rw [htl, sub_zero] at e1
  have turn : ∀ i < 121, ∀ q, qlrpflPrep (heightTurn s (10 + (i : ℕ))) = .ok q → q.dist = 66300 ∧
      ∃ G, (plateauPath (10 + i)).IsGeometry ((plateauPath (10 + i)).z ((plateauPath (10 + i)).n - 1)) G ∧
        linkOf q = (plateauPath (10 + i)).link G (waveNumber 2488) 314 s.zgnd.toC ∧ Plateau (10 + i) (linkOf q) := by
    intro i hi q hq
    have py : (0 : ℝ) < 10 + i := by positivity
    have c : CampaignHeight (10 + (i : ℝ)) := ⟨i, by omega, rfl⟩
    obtain ⟨-, -, k3, k4, k5⟩ := pimter_turn (by norm_num) hx hl' py e1 e2 e3 e4 e5 e6 (.refl s) hq (P := plateauPath (10 + i)) rfl
    refine ⟨by rw [k3]; exact (plateau_ends _).2.2, _, k4, k5, ?_⟩
    rw [k5]
    exact plateau_link (plateau_range c) k4 e8
  obtain ⟨rows, h, -⟩ := run (by
    intro i hi q hq
    obtain ⟨ed, G, -, -, M⟩ := turn i hi q hq
    have u := M.link_usable
    refine ⟨⟨u.t0, u.t1, u.he0, u.he1⟩, .inr (lt_of_lt_of_le (by norm_num) (M.angle_ge M.d5.ge)), ?_⟩
    unfold Link.NoClash
    rw [if_neg (by rw [ed]; linarith [M.dlsa.2])]
    exact M.notParallel)
  have ex : ∀ y, ∃ G, CampaignHeight y → (plateauPath y).IsGeometry ((plateauPath y).z ((plateauPath y).n - 1)) G := by
    intro y
    by_cases c : CampaignHeight y
    · obtain ⟨i, hi, rfl⟩ := c
      obtain ⟨q, hq, -⟩ := prep i (by omega)
      obtain ⟨-, G, hG, -⟩ := turn i (by omega) q hq
      exact ⟨G, fun _ => hG⟩
    · exact ⟨⟨0, 0, 0, 0, 0, 0, 0⟩, fun h => absurd h c⟩
  choose G hG using ex
  have W : ∀ y, CampaignHeight y → Plateau y ((plateauPath y).link (G y) (waveNumber 2488) 314 s.zgnd.toC) :=
    fun y c => plateau_link (plateau_range c) (hG y c) e8
  exact ⟨G, s.zgnd.toC, rows, tl, hdis, htl, hl, e8, hG, W, h⟩

/-- Non-vacuity: the shipped campaign over the tableland, all 121 heights. -/
example : ∃ (G : ℝ → Geometry) (z : ℂ) (zr zc : ℝ) (rows : List (PimterRow ℝ)) (R : ∀ n, List (PimterRow (Fixed n))),
    (∀ y, CampaignHeight y → Plateau y ((plateauPath y).link (G y) (waveNumber 2488) 314 z)) ∧
    runItmlogicPimter (plateauZ 0 1000) [] plateauD (blank 1 hillIn) = .ok rows ∧
    (∀ᶠ n in atTop, runItmlogicPimter ((plateauZ 0 1000).map fun x => (⟨grid n x⟩ : Fixed n)) [] (plateauD.map fun x => (⟨grid n x⟩ : Fixed n)) (blank 1 (gridIn n hillIn)) = .ok (R n) ∧
      (R n).length = 121) ∧
    ∀ k : ℕ, k ≤ 120 → ∃ S : ∀ n, PimterRow (Fixed n), (∀ᶠ n in atTop, (R n)[k]? = some (S n) ∧ (S n).reliability = 50) ∧
      (fun n => (S n).loss.val - ((plateauPath (10 + k)).link (G (10 + k)) (waveNumber 2488) 314 z).loss 5 1 true false 66300 zr 0 zc) =O[atTop] fun n => (1 / 2 : ℝ) ^ n := by
  obtain ⟨G, z, rows, tl, hdis, htl, hl, hz, hG, W, h⟩ := plateau_run
  have hx : (0 : ℝ) < 1700 := by norm_num
  have u : Untouched (blank 1 hillIn) := ⟨rfl, rfl, rfl, rfl, rfl, rfl, rfl⟩
  obtain ⟨R, zr, zc, a1, -, -, a4⟩ := C92_published gridRefining (U := fun n => blank 1 (gridIn n hillIn)) (V := fun n => []) u (grid_seq _) (grid_seq _) hdis hx hl h
    untied_campaign untied_campaign (P := plateauPath) (fun y => by rw [htl, sub_zero]; rfl) hG (fun y c => plateau_generic c _ _)
    (fun y c => lt_of_lt_of_le (by norm_num) (W y c).dh) hz (fun y c => (W y c).clear (by rw [(plateau_ends y).2.2]; norm_num))
  refine ⟨G, z, zr, zc, rows, R, W, h, a1, fun k hk => ?_⟩
  obtain ⟨S, s1, -, -, s4⟩ := a4 k hk
  refine ⟨S, s1, ?_⟩
  rw [(plateau_ends _).2.2] at s4
  exact s4.2

end Itm.Props

import Verif.Props.C96
import Verif.Props.C66
import Verif.Props.C70
import Verif.Lemmas.RefineArea
import Verif.Lemmas.Beam

/-! C97: with growing precision, all rows of an area prediction approach those of the exact program. -/

namespace Itm.Props
open Itm.Spec Filter Asymptotics Topology

variable {ι : Type} {l : Filter ι} {α : ι → Type} [∀ i, PyNum (α i)] {ε : ι → ℝ}

/-- The prepared dictionary has positive heights, horizons, wave number, curvature and ground. -/
theorem area_adm {kst : Pair Int} {p s q : PropSt ℝ} (hf : 0 < p.fmhz) (h0 : 0 < p.hg.x0) (h1 : 0 < p.hg.x1) (hd : 0 ≤ p.dh)
    (hs : areaSetup p = .ok s) (hq : qlra kst s = .ok q) : Adm (inp q) := by
  rw [areaSetup_eq] at hs
  obtain ⟨z, hz, hs⟩ := bind_eq_ok.1 hs
  rw [pure_ok, ok_inj] at hs
  have hz' := areaSys_real hz
  have hκ : 0 < s.gme := by
    rw [← hs]; have := (curvature_range (n := 301.0) (by norm_num) (by norm_num)).1; dsimp only; linarith
  have g0 : 0 < s.hg.x0 := by rw [← hs]; exact h0
  have g1 : 0 < s.hg.x1 := by rw [← hs]; exact h1
  have gd : 0 ≤ s.dh := by rw [← hs]; exact hd
  obtain ⟨he0, he1, q', e, hq', -⟩ := C38_total (kst := kst) g0 g1 hκ gd
  obtain ⟨b0, -, b1, -⟩ := C38_bounds g0 g1 hκ gd hq
  obtain ⟨-, c0, c1⟩ := C38_only_usable hq
  rw [hq, ok_inj] at e
  subst e
  have w : 0 < s.wn := by rw [← hs]; dsimp only; positivity
  have zr : 0 < z.re := by
    have e : z.re = (lossless p.fmhz (decide (p.ipol ≠ 0))).re := by rw [← hz']; rfl
    rw [e]
    unfold lossless
    have h14 : (0 : ℝ) < √14 := by positivity
    split_ifs
    · rw [Complex.div_re]
      unfold permittivity
      simp only [Complex.ofReal_re, Complex.ofReal_im, zero_mul, zero_div, add_zero]
      have : 0 < Complex.normSq ⟨15, 376.62 * 0.001 / waveNumber p.fmhz⟩ := by
        rw [Complex.normSq_mk]
        nlinarith [mul_self_nonneg (376.62 * 0.001 / waveNumber p.fmhz)]
      positivity
    · rw [Complex.ofReal_re]; exact h14
  have k0 := (div_pos_iff_of_pos_right hκ).1 c0
  have k1 := (div_pos_iff_of_pos_right hκ).1 c1
  have eq : q.hg = s.hg ∧ q.wn = s.wn ∧ q.gme = s.gme ∧ q.dh = s.dh ∧ q.zgnd = s.zgnd := by rw [hq']; exact ⟨rfl, rfl, rfl, rfl, rfl⟩
  obtain ⟨e1, e2, e3, e4, e5⟩ := eq
  have ez : s.zgnd = z := by rw [← hs]
  constructor <;> simp only [inp, e1, e2, e3, e4, e5, ez] <;> assumption

/-- The distances of a plan with a step are positive. -/
theorem plan_pos {g : Grid ℝ} {dt : ℝ} (hg : (areaPlan g).ds = some dt) : 0 < (areaPlan g).d0 ∧ 0 < dt ∧ ((areaPlan g).ndc ≤ 0 ∨ 0 < (areaPlan g).ds2) := by
  have hd0 : 0 < (areaPlan g).d0 := by
    unfold areaPlan
    dsimp only
    split_ifs <;> dsimp only <;> rw [zero_lit] at * <;> first | (push Not at *; assumption) | (norm_num; done)
  refine ⟨hd0, ?_, ?_⟩
  · unfold areaPlan at hg
    dsimp only at hg
    split_ifs at hg <;> simp only [Option.some.injEq, reduceCtorEq] at hg <;> rw [← hg] <;> rw [zero_lit] at * <;> push Not at * <;> tauto
  · unfold areaPlan
    dsimp only
    split_ifs <;> first | exact .inl le_rfl | (right; rw [zero_lit] at *; push Not at *; tauto)

/-! ### Grids beyond the horizon -/

theorem runC_beyond {p : PropSt ℝ} {s : Setup ℝ} (hx : ∃ x, scatC (inp p) s.h s.l 0.0 = .ok x) {D : ℝ} (hD : s.h.dlsa ≤ D) {c : LrCache ℝ} (I : CInv (inp p) s.h s.l c) :
    ∃ c', runC (inp p) s.h s.l D c = .ok c' := by
  obtain ⟨⟨x1, x2, x3⟩, hx⟩ := hx
  have hfar : D ≤ (0.0 : ℝ) ∨ s.h.dlsa ≤ D := .inr hD
  unfold runC losStage scatStage scatSetupStage clampStage
  rw [if_neg (not_lt.2 hD), pure_bind', if_pos hfar]
  by_cases hw : c.wscat = false
  · rw [if_pos hw, I.a1 hw, hx, ok_bind]
    exact ⟨_, rfl⟩
  · rw [if_neg hw]
    obtain ⟨x, _, hx, _⟩ := I.scat (by simpa using hw)
    rw [pure_bind', hx]
    exact ⟨_, rfl⟩

theorem loop_beyond {p0 : PropSt ℝ} {s : Setup ℝ} (a : Adm (inp p0)) (hx : ∃ x, scatC (inp p0) s.h s.l 0.0 = .ok x) (zt zl : ℝ) (zc : List (Int × ℝ)) {ndc : Int} {ds2 : ℝ}
    (hn : ndc ≤ 0 ∨ 0 < ds2) (k : Nat) {jd : Int} (hj : 0 ≤ jd) {d dt : ℝ} (hd : 0 < d) (hf : s.h.dlsa ≤ d * 1000.0) (hdt : 0 < dt) {q : PropSt ℝ} (T : Turn' p0 s q) :
    ∃ r, areaLoop zt zl zc ndc ds2 k jd d dt q = .ok r := by
  induction k generalizing jd d dt q with
  | zero => exact ⟨_, rfl⟩
  | succ k ih =>
    have hd' : 0 < d * 1000.0 := by positivity
    obtain ⟨k0, hk⟩ := T.klim
    obtain ⟨m0, hm⟩ := T.mdvar
    have J := T.inv.lvar (max 1 q.lvar)
    obtain ⟨r, hr⟩ : ∃ r, lrprop (d * 1000.0) { q with lvar := max 1 q.lvar } = .ok r := by
      rw [lrprop_cont J.mdp J.hor J.line, J.inp]
      obtain ⟨c', hc⟩ := runC_beyond hx hf J.cache
      rw [hc]
      exact ⟨_, rfl⟩
    have I := (cont_inv J hr).1
    have T' := turn_lrprop T.cache hk hm hr I
    obtain ⟨ar, har, -⟩ := C18_aref_nonneg hr
    have hdist : r.dist = d * 1000.0 := by
      rw [(lrprop_dist hr).1, if_pos]
      exact T.inv.mdp.ge
    obtain ⟨fs, rows, r', h1, h2, T''⟩ := turn_next a ⟨T', ar, har⟩ (by rw [hdist]; exact hd') d zt zl zc
    have hdt' : 0 < (if jd + 1 = ndc then ds2 else dt) := by
      split_ifs with h
      · rcases hn with hn | hn
        · omega
        · exact hn
      · exact hdt
    obtain ⟨x, hx'⟩ := ih (jd := jd + 1) (by omega) (d := d + (if jd + 1 = ndc then ds2 else dt)) (by linarith) (hf.trans (by norm_num; linarith)) hdt' T''
    unfold areaLoop
    dsimp only
    rw [hr, ok_bind, h1, ok_bind, h2, ok_bind]
    dsimp only
    rw [hx', ok_bind]
    exact ⟨_, rfl⟩

theorem loop_first_beyond {p : PropSt ℝ} {s : Setup ℝ} (hm : p.mdp = 1) (hs : setupC p.mdp (inp p) = .ok s) (a : Adm (inp p)) (hx : ∃ x, scatC (inp p) s.h s.l 0.0 = .ok x)
    (hi : CacheInv p) {k0 m0 : ℤ} (hk : p.klim = some k0) (hmd : p.mdvar = some m0) (zt zl : ℝ) (zc : List (Int × ℝ)) {ndc : Int} {ds2 : ℝ}
    (hn : ndc ≤ 0 ∨ 0 < ds2) (k : Nat) {d dt : ℝ} (hd : 0 < d) (hf : s.h.dlsa ≤ d * 1000.0) (hdt : 0 < dt) : ∃ r, areaLoop zt zl zc ndc ds2 k 0 d dt p = .ok r := by
  cases k with
  | zero => exact ⟨_, rfl⟩
  | succ k =>
    have hd' : 0 < d * 1000.0 := by positivity
    have hdo : distOf { p with lvar := max 1 p.lvar } (d * 1000.0) = d * 1000.0 := by unfold distOf; rw [if_pos (by simp only; omega)]
    obtain ⟨r, hr⟩ : ∃ r, lrprop (d * 1000.0) { p with lvar := max 1 p.lvar } = .ok r := by
      rw [lrprop_setup (by simp only; omega), show setupC ({ p with lvar := max 1 p.lvar } : PropSt ℝ).mdp (inp { p with lvar := max 1 p.lvar }) = setupC p.mdp (inp p) from rfl,
        hs, ok_bind, hdo]
      obtain ⟨c', hc⟩ := runC_beyond (p := p) hx hf (freshCInv _ _ _ _)
      rw [show inp ({ p with lvar := max 1 p.lvar } : PropSt ℝ) = inp p from rfl, hc]
      exact ⟨_, rfl⟩
    obtain ⟨s', hs', I, -, -⟩ := first_inv (p := { p with lvar := max 1 p.lvar }) (by simp only; omega) hr
    rw [show setupC ({ p with lvar := max 1 p.lvar } : PropSt ℝ).mdp (inp { p with lvar := max 1 p.lvar }) = setupC p.mdp (inp p) from rfl, hs, ok_inj] at hs'
    subst hs'
    have I' : SInv p s r := ⟨I.mdp, I.inp, I.hor, I.diff, I.line, I.cache⟩
    have T' := turn_lrprop hi hk hmd hr I'
    obtain ⟨ar, har, -⟩ := C18_aref_nonneg hr
    have hdist : r.dist = d * 1000.0 := by
      rw [(lrprop_dist hr).1, if_pos (by simp only; omega)]
    obtain ⟨fs, rows, r', h1, h2, T''⟩ := turn_next a ⟨T', ar, har⟩ (by rw [hdist]; exact hd') d zt zl zc
    have hdt' : 0 < (if (0:Int) + 1 = ndc then ds2 else dt) := by
      split_ifs with h
      · rcases hn with hn | hn
        · omega
        · exact hn
      · exact hdt
    obtain ⟨x, hx'⟩ := loop_beyond a hx zt zl zc hn k (jd := 0 + 1) (by omega) (d := d + (if (0:Int) + 1 = ndc then ds2 else dt)) (by linarith)
      (hf.trans (mul_le_mul_of_nonneg_right (by linarith) (by norm_num))) hdt' T''
    unfold areaLoop
    dsimp only
    rw [hr, ok_bind, h1, ok_bind, h2, ok_bind]
    dsimp only
    rw [hx', ok_bind]
    exact ⟨_, rfl⟩

/-- **C97** (totality beyond the horizon) An exact prediction whose first distance is at or beyond the smooth-earth horizon is answered
unless the diffraction and the scatter line are parallel (parameter ranges of `C66_area`). -/
theorem C97_beyond {p : PropSt ℝ} {g : Grid ℝ} {dt : ℝ} (qt ql : Int) (qc : List Int) (kst : Pair Int) (hf : 20 ≤ p.fmhz ∧ p.fmhz ≤ 20000)
    (hg0 : 1 ≤ p.hg.x0 ∧ p.hg.x0 ≤ 3000) (hg1 : 1 ≤ p.hg.x1 ∧ p.hg.x1 ≤ 3000) (hdh : 0 ≤ p.dh ∧ p.dh ≤ 700) (hg : (areaPlan g).ds = some dt) {L : Link}
    (hL : L = roughLink p.fmhz p.dh p.hg.x0 p.hg.x1 301 kst.x0 kst.x1 (lossless p.fmhz (decide (p.ipol ≠ 0)))) (hs : L.dlsa ≤ 1000 * gridStart g) (hp : ¬ L.Parallel) :
    ∃ rows r, itmlogicAreaAt qt ql qc g kst p = .ok (rows, r) := by
  obtain ⟨s, q, hs', hq, W, hθ, hm, hi, hk, hmd⟩ := area_limits kst hf hg0 hg1 hdh
  obtain ⟨st, hst, hh⟩ := limits_setup W
  obtain ⟨hlk, -⟩ := area_link (by linarith [hg0.1]) (by linarith [hg1.1]) hdh.1 hs' hq
  rw [← hL] at hlk
  obtain ⟨-, ⟨e1, -⟩, -⟩ := line_spec hst
  rw [hlk] at e1
  have hsc := (limits_scat W hst hθ).1 (by rw [hlk]; exact hp)
  obtain ⟨zt, hzt, lt⟩ := C04_qerfi_total [(percent qt : ℝ)]
  obtain ⟨zl, hzl, ll⟩ := C04_qerfi_total [(percent ql : ℝ)]
  obtain ⟨zc, hzc, -⟩ := C04_qerfi_total (qc.map (percent : Int → ℝ))
  have one : ∀ l : List ℝ, l.length = [(0:ℝ)].length → ∃ z, pyGet l 0 = .ok z := by
    intro l hl
    match l, hl with
    | [z], _ => exact ⟨z, rfl⟩
  obtain ⟨zt0, hzt0⟩ := one zt lt
  obtain ⟨zl0, hzl0⟩ := one zl ll
  obtain ⟨pd, pt, pn⟩ := plan_pos hg
  obtain ⟨g1, g2, g3, g4⟩ := plan_step hg
  have ed : (areaPlan g).d0 = gridStart g := by
    unfold areaPlan gridStart
    dsimp only
    simp only [zero_lit]
    unfold gridStart at g2 g3
    split_ifs at * <;> first | rfl | (push Not at *; linarith) | (norm_num at *; linarith)
  have run : itmlogicAreaAt qt ql qc g kst p =
      areaLoop zt0 zl0 (qc.zip zc) (areaPlan g).ndc (areaPlan g).ds2 (areaPlan g).nd.toNat 0 (areaPlan g).d0 dt q := by
    unfold itmlogicAreaAt
    rw [hzt, ok_bind, hzl, ok_bind, hzc, ok_bind, hzt0, ok_bind, hzl0, ok_bind]
    dsimp only
    rw [hs', ok_bind, hq, ok_bind, hg]
    rfl
  rw [run]
  obtain ⟨⟨rows, r⟩, h⟩ := loop_first_beyond hm hst (limits_adm W) hsc hi hk hmd zt0 zl0 (qc.zip zc) pn (areaPlan g).nd.toNat pd
    (by rw [e1, ed]; norm_num; linarith) pt
  exact ⟨rows, r, h⟩

/-- **C97** An area prediction, run in arithmetics that grow precise: user inputs and grid constants are approximated, the exact run
returns, no level's deviate is halfway between two numbers of four decimals, the number of distances does not hang on the last digits
of the grid constants, sited antennas are not of 5 m, the terrain is rough, and the link the user described is in general position
at every distance of the exact run. Then the runs finally return, with as many rows as the exact run; each row carries the level of
the exact row, and its distance and loss approach the exact ones as fast as the arithmetics grow precise. -/
theorem C97_area (F : Refining l α ε) {P : ∀ i, PropSt (α i)} {p r : PropSt ℝ} {G : ∀ i, Grid (α i)} {g : Grid ℝ} {qt ql : Int} {qc : List Int} {kst : Pair Int}
    {rows : List (AreaRow ℝ)} (hP : UserApx F P p) (u : Untouched p) (hG : GridApx F G g) (hf : 0 < p.fmhz) (h0 : 0 < p.hg.x0) (h1 : 0 < p.hg.x1) (hd : 0 < p.dh)
    (h : itmlogicAreaAt qt ql qc g kst p = .ok (rows, r)) (ct : Untied ((qt : ℝ) / 100)) (cl : Untied ((ql : ℝ) / 100)) (cc : ∀ x ∈ qc, Untied ((x : ℝ) / 100))
    (hq : qc ≠ []) (cg : GridClear g) (c0 : SiteClear kst.x0 p.hg.x0) (c1 : SiteClear kst.x1 p.hg.x1) {L : Link}
    (hL : L = roughLink p.fmhz p.dh p.hg.x0 p.hg.x1 301 kst.x0 kst.x1 (lossless p.fmhz (decide (p.ipol ≠ 0)))) (cr : ∀ row ∈ rows, L.Clear (1000 * row.distance_km)) :
    ∃ (R : ∀ i, List (AreaRow (α i))) (Q : ∀ i, PropSt (α i)), (∀ᶠ i in l, itmlogicAreaAt qt ql qc (G i) kst (P i) = .ok (R i, Q i)) ∧
      (∀ᶠ i in l, (R i).length = rows.length) ∧
      ∀ (j : ℕ) (row : AreaRow ℝ), rows[j]? = some row → ∃ S : ∀ i, AreaRow (α i), (∀ᶠ i in l, (R i)[j]? = some (S i) ∧ (S i).confidence = row.confidence) ∧
        F.Approx (fun i => (S i).distance_km) row.distance_km ∧ F.Approx (fun i => (S i).loss) row.loss := by
  have key : Follows l (fun b r => ListApx l (RowApx F) (fun i => (b i).1) r.1) (fun i => itmlogicAreaAt qt ql qc (G i) kst (P i)) (itmlogicAreaAt qt ql qc g kst p) := by
    obtain ⟨zt, zl, zc, s, q, dt, -, -, hz, hs, hq', hdt, hl⟩ := itmlogicAreaAt_ok h
    have plan := refine_plan hG cg hdt
    obtain ⟨pd, pt, pn⟩ := plan_pos hdt
    have hgs : s.wn = p.fmhz / 47.7 ∧ s.hg = p.hg ∧ s.dh = p.dh ∧ 0 < s.gme := by
      rw [areaSetup_eq] at hs
      obtain ⟨z, -, hs⟩ := bind_eq_ok.1 hs
      rw [pure_ok, ok_inj] at hs
      rw [← hs]
      refine ⟨rfl, rfl, rfl, ?_⟩
      have := (curvature_range (n := 301.0) (by norm_num) (by norm_num)).1; dsimp only; linarith
    obtain ⟨s1, s2, s3, s4⟩ := hgs
    have hw : 0 < s.wn := by rw [s1]; positivity
    obtain ⟨hlk, hm, -⟩ := area_link h0 h1 hd.le hs hq'
    rw [← hL] at hlk
    have hzn : qc.zip zc ≠ [] := by
      have := (C04_qerfi_entries _ _).1 hz
      have hlen := this.length_eq
      rw [List.length_map] at hlen
      intro c
      have := congrArg List.length c
      rw [List.length_zip, ← hlen] at this
      simp at this
      exact hq this
    have tc := turns_of_rows (L := L) hzn pn _ le_rfl pd pt hl cr
    have adm : Adm (inp q) := area_adm hf h0 h1 hd.le hs hq'
    have qd : 0 < q.dh := by
      obtain ⟨he0, he1, q', e, eq, -⟩ := C38_total (kst := kst) (by rw [s2]; exact h0) (by rw [s2]; exact h1) s4 (by rw [s3]; exact hd.le)
      rw [hq', ok_inj] at e
      rw [e, eq]; dsimp only; rw [s3]; exact hd
    unfold itmlogicAreaAt
    refine Follows.bind (by simpa using refine_qerfi F [qt] (by simpa using ct)) (fun A1 a1 _ hA1 => ?_)
    refine Follows.bind (by simpa using refine_qerfi F [ql] (by simpa using cl)) (fun A2 a2 _ hA2 => ?_)
    refine Follows.bind (refine_qerfi F qc cc) (fun A3 a3 e3 hA3 => ?_)
    rw [hz, ok_inj] at e3
    subst e3
    refine Follows.bind (refine_get hA1) (fun X x _ hx => ?_)
    refine Follows.bind (refine_get hA2) (fun Y y _ hy => ?_)
    dsimp only
    refine Follows.bind (refine_areaSetup hP u) (fun S s' es hS => ?_)
    rw [hs, ok_inj] at es
    subst es
    refine Follows.bind (refine_qlra hS.1 hS.2 kst hw (by rw [s2]; exact h0) (by rw [s2]; exact h1) s4 (by rw [s3]; exact hd) (by rw [s2]; exact c0) (by rw [s2]; exact c1))
      (fun Q q' eq hQ => ?_)
    rw [hq', ok_inj] at eq
    subst eq
    obtain ⟨T, hT, aT⟩ := plan.ds _ hdt
    rw [hdt]
    have fin := refine_loop_first hQ adm qd hx hy (refine_zip qc hA3) (areaPlan g).ndc plan.ds2 (areaPlan g).nd.toNat (jd := 0) plan.d0 aT (by rw [hlk]; exact tc)
    refine (Follows.congr fin ?_)
    filter_upwards [hT, plan.nd, plan.ndc] with i k1 k2 k3
    rw [k1, k2, k3]
    rfl
  obtain ⟨b, hb, hB⟩ := key _ h
  refine ⟨fun i => (b i).1, fun i => (b i).2, hb, hB.length, fun j row hj => ?_⟩
  obtain ⟨S, s1, s2, s3, s4⟩ := hB.get hj
  exact ⟨S, s1.and s2, s3, s4⟩

/-- **C97** (published loss) On a two-leg grid the limits are the losses for the published attenuation of the link the user described
(lossless ground), for the deviates of the requested levels, in climate 5 with broadcast variability: beyond the horizon the
attenuation of the distance itself, so the published loss; within line of sight that of the first distance (`C20_sweep_refuted`). -/
theorem C97_published (F : Refining l α ε) {P : ∀ i, PropSt (α i)} {p r : PropSt ℝ} {G : ∀ i, Grid (α i)} {g : Grid ℝ} {qt ql : Int} {qc : List Int} {kst : Pair Int}
    {rows : List (AreaRow ℝ)} (hP : UserApx F P p) (u : Untouched p) (hG : GridApx F G g) (hf : 0 < p.fmhz) (h0 : 0 < p.hg.x0) (h1 : 0 < p.hg.x1) (hd : 0 < p.dh)
    (g0 : 0 < g.d0) (g1 : g.d0 < g.d1) (gs : 0 < g.ds1) (h : itmlogicAreaAt qt ql qc g kst p = .ok (rows, r)) (ct : Untied ((qt : ℝ) / 100)) (cl : Untied ((ql : ℝ) / 100))
    (cc : ∀ x ∈ qc, Untied ((x : ℝ) / 100)) (hq : qc ≠ []) (cg : GridClear g) (c0 : SiteClear kst.x0 p.hg.x0) (c1 : SiteClear kst.x1 p.hg.x1) {L : Link}
    (hL : L = roughLink p.fmhz p.dh p.hg.x0 p.hg.x1 301 kst.x0 kst.x1 (lossless p.fmhz (decide (p.ipol ≠ 0)))) (cr : ∀ row ∈ rows, L.Clear (1000 * row.distance_km)) :
    ∃ (R : ∀ i, List (AreaRow (α i))) (Q : ∀ i, PropSt (α i)) (zt zl : ℝ), DeviateOf qt zt ∧ DeviateOf ql zl ∧
      (∀ᶠ i in l, itmlogicAreaAt qt ql qc (G i) kst (P i) = .ok (R i, Q i)) ∧ (∀ᶠ i in l, (R i).length = rows.length) ∧
      ∀ (j : ℕ) (row : AreaRow ℝ), rows[j]? = some row →
        ∃ (S : ∀ i, AreaRow (α i)) (zc : ℝ), (∀ᶠ i in l, (R i)[j]? = some (S i) ∧ (S i).confidence = row.confidence) ∧ DeviateOf row.confidence zc ∧
          F.Approx (fun i => (S i).distance_km) row.distance_km ∧
          F.Approx (fun i => (S i).loss) (L.lossWith 5 3 false false (1000 * row.distance_km)
            (L.reference (if 1000 * row.distance_km < L.dlsa then 1000 * g.d0 else 1000 * row.distance_km)) zt zl zc) := by
  obtain ⟨R, Q, a, b, c⟩ := C97_area F hP u hG hf h0 h1 hd h ct cl cc hq cg c0 c1 hL cr
  obtain ⟨zt, zl, ht, hl, k⟩ := C70_rows h0 h1 hd.le g0 g1 gs h hL
  obtain ⟨ds, -, inc, ⟨rest, e⟩, lab⟩ := C46_grid g0 g1 gs h
  refine ⟨R, Q, zt, zl, ht, hl, a, b, fun j row hj => ?_⟩
  obtain ⟨S, s1, s2, s3⟩ := c j row hj
  have hm : row ∈ rows := List.mem_of_getElem? hj
  have ge : g.d0 ≤ row.distance_km := by
    have m : (row.distance_km, row.confidence) ∈ rows.map (fun row => (row.distance_km, row.confidence)) := List.mem_map_of_mem hm
    rw [lab] at m
    obtain ⟨d, hd', m⟩ := List.mem_flatMap.1 m
    obtain ⟨x, -, m⟩ := List.mem_map.1 m
    have ed : d = row.distance_km := congrArg Prod.fst m
    rw [ed, e] at hd'
    rw [e] at inc
    rcases List.mem_cons.1 hd' with w | w
    · exact w.ge
    · exact ((List.pairwise_cons.1 inc).1 _ w).le
  have c := cr row hm
  have reg : L.Regular (if 1000 * row.distance_km < L.dlsa then 1000 * g.d0 else 1000 * row.distance_km) := by
    split_ifs with w
    · exact .inl ⟨by linarith, by linarith⟩
    · have sc := c.scatter (lt_of_le_of_ne (not_lt.1 w) c.horizon.symm)
      exact .inr ⟨sc.h5.usable.imp le_of_lt le_of_lt, sc.h6.usable.imp le_of_lt le_of_lt⟩
  obtain ⟨zc, hc, e⟩ := k row hm
  rw [Link.unbarredReference_eq reg] at e
  refine ⟨S, zc, s1, hc, s2, ?_⟩
  rw [← e]; exact s3

/-! The link of `Beam`, distances from 50 to 500 km, the shipped levels, numbers with `n` binary digits after the point. -/

/-- What the user supplies for the link of `Beam`. -/
noncomputable def beamUser : PropSt ℝ := { blank 1 hillIn with fmhz := 19080, hg := ⟨30, 30⟩, dh := 30, ipol := 0 }
noncomputable def beamGrid : Grid ℝ := { d0 := 50, d1 := 150, ds1 := 10, d2 := 500, ds2 := 50 }

theorem beamGrid_clear : GridClear beamGrid ∧ gridStart beamGrid = 50 := by
  have e : gridStart beamGrid = 50 := by
    unfold gridStart beamGrid; norm_num
  have q : ∀ (m : ℤ) (n : ℤ), (m : ℝ) + 3 / 4 ≠ n := by
    intro m n h
    have h1 : (m : ℝ) < n := by linarith
    have h2 : (n : ℝ) < m + 1 := by linarith
    have h1' : m < n := by exact_mod_cast h1
    have h2' : n < m + 1 := by exact_mod_cast h2
    omega
  have c : gridCount beamGrid = 11 := by
    unfold gridCount
    rw [e]
    show ⌊((150 : ℝ) - 50) / 10 + 7 / 4⌋ = 11
    rw [Int.floor_eq_iff]; norm_num
  have r : gridReach beamGrid = 150 := by
    unfold gridReach
    rw [e, c]
    show (50 : ℝ) + ((11 : ℤ) - 1) * 10 = 150
    norm_num
  refine ⟨⟨?_, ?_, ?_, ?_, ?_⟩, e⟩
  · show (50 : ℝ) ≠ 0; norm_num
  · intro n h
    rw [e] at h
    refine q 11 n ?_
    rw [← h]
    show ((11 : ℤ) : ℝ) + 3 / 4 = (150 - 50) / 10 + 7 / 4
    norm_num
  · rw [r]; show (500 : ℝ) ≠ 150; norm_num
  · show (50 : ℝ) ≠ 0; norm_num
  · intro _ n h
    rw [r] at h
    refine q 7 n ?_
    rw [← h]
    show ((7 : ℤ) : ℝ) + 3 / 4 = (500 - 150) / 50 + 3 / 4
    norm_num

theorem beam_run : ∃ rows r, itmlogicAreaAt 50 50 areaQc beamGrid ⟨0, 0⟩ beamUser = .ok (rows, r) := by
  obtain ⟨nd, -, h⟩ := areaPlan_two (g := beamGrid) (show (0 : ℝ) < 50 by norm_num) (show (50 : ℝ) < 150 by norm_num) (show (0 : ℝ) < 10 by norm_num)
  have hp : (areaPlan beamGrid).ds = some 10 := by rcases h with ⟨-, h⟩ | ⟨-, h⟩ <;> (rw [h]; rfl)
  refine C97_beyond (L := beam) 50 50 areaQc ⟨0, 0⟩ ?_ ?_ ?_ ?_ hp ?_ ?_ beam_notParallel
  · show (20 : ℝ) ≤ 19080 ∧ (19080 : ℝ) ≤ 20000; norm_num
  · show (1 : ℝ) ≤ 30 ∧ (30 : ℝ) ≤ 3000; norm_num
  · show (1 : ℝ) ≤ 30 ∧ (30 : ℝ) ≤ 3000; norm_num
  · show (0 : ℝ) ≤ 30 ∧ (30 : ℝ) ≤ 700; norm_num
  · rfl
  · rw [beamGrid_clear.2, beam_dlsa]; linarith [beam_r.2]

/-- The beam at every distance of its grid. -/
theorem beam_rows {rows : List (AreaRow ℝ)} {r : PropSt ℝ} (h : itmlogicAreaAt 50 50 areaQc beamGrid ⟨0, 0⟩ beamUser = .ok (rows, r)) :
    rows ≠ [] ∧ ∀ row ∈ rows, 50 ≤ row.distance_km := by
  have g0 : (0 : ℝ) < beamGrid.d0 := show (0 : ℝ) < 50 by norm_num
  have g1 : beamGrid.d0 < beamGrid.d1 := show (50 : ℝ) < 150 by norm_num
  have gs : 0 < beamGrid.ds1 := show (0 : ℝ) < 10 by norm_num
  obtain ⟨ds, -, inc, ⟨rest, e⟩, lab⟩ := C46_grid g0 g1 gs h
  constructor
  · rintro rfl
    rw [e] at lab
    simp [areaQc] at lab
  · intro row hm
    have m : (row.distance_km, row.confidence) ∈ rows.map (fun row => (row.distance_km, row.confidence)) := List.mem_map_of_mem hm
    rw [lab] at m
    obtain ⟨d, hd', m⟩ := List.mem_flatMap.1 m
    obtain ⟨x, -, m⟩ := List.mem_map.1 m
    have ed : d = row.distance_km := congrArg Prod.fst m
    rw [ed, e] at hd'
    rw [e] at inc
    rcases List.mem_cons.1 hd' with w | w
    · exact w.ge
    · exact ((List.pairwise_cons.1 inc).1 _ w).le

example : ∃ (rows : List (AreaRow ℝ)) (r : PropSt ℝ) (R : ∀ n, List (AreaRow (Fixed n))) (Q : ∀ n, PropSt (Fixed n)) (zt zl : ℝ),
    itmlogicAreaAt 50 50 areaQc beamGrid ⟨0, 0⟩ beamUser = .ok (rows, r) ∧ rows ≠ [] ∧ DeviateOf 50 zt ∧ DeviateOf 50 zl ∧
    (∀ᶠ n in atTop, itmlogicAreaAt 50 50 areaQc ⟨⟨grid n 50⟩, ⟨grid n 150⟩, ⟨grid n 10⟩, ⟨grid n 500⟩, ⟨grid n 50⟩⟩ ⟨0, 0⟩
      { blank 1 (gridIn n hillIn) with fmhz := ⟨grid n 19080⟩, hg := ⟨⟨grid n 30⟩, ⟨grid n 30⟩⟩, dh := ⟨grid n 30⟩, ipol := 0 } = .ok (R n, Q n)) ∧
    (∀ᶠ n in atTop, (R n).length = rows.length) ∧
    ∀ (j : ℕ) (row : AreaRow ℝ), rows[j]? = some row → ∃ (S : ∀ n, AreaRow (Fixed n)) (zc : ℝ),
      (∀ᶠ n in atTop, (R n)[j]? = some (S n) ∧ (S n).confidence = row.confidence) ∧ DeviateOf row.confidence zc ∧
      (fun n => (S n).loss.val - beam.loss 5 3 false false (1000 * row.distance_km) zt zl zc) =O[atTop] fun n => (1 / 2 : ℝ) ^ n := by
  obtain ⟨rows, r, h⟩ := beam_run
  have g0 : (0 : ℝ) < beamGrid.d0 := show (0 : ℝ) < 50 by norm_num
  have g1 : beamGrid.d0 < beamGrid.d1 := show (50 : ℝ) < 150 by norm_num
  have gs : 0 < beamGrid.ds1 := show (0 : ℝ) < 10 by norm_num
  obtain ⟨ne, ge⟩ := beam_rows h
  obtain ⟨R, Q, zt, zl, ht, hl, a, b, c⟩ := C97_published gridRefining (L := beam)
    (P := fun n => { blank 1 (gridIn n hillIn) with fmhz := ⟨grid n 19080⟩, hg := ⟨⟨grid n 30⟩, ⟨grid n 30⟩⟩, dh := ⟨grid n 30⟩, ipol := 0 })
    (G := fun n => ⟨⟨grid n 50⟩, ⟨grid n 150⟩, ⟨grid n 10⟩, ⟨grid n 500⟩, ⟨grid n 50⟩⟩)
    ⟨grid_approx _, grid_approx _, grid_approx _, grid_approx _, fun _ => rfl⟩ ⟨rfl, rfl, rfl, rfl, rfl, rfl, rfl⟩
    ⟨grid_approx _, grid_approx _, grid_approx _, grid_approx _, grid_approx _⟩ (show (0 : ℝ) < 19080 by norm_num) (show (0 : ℝ) < 30 by norm_num)
    (show (0 : ℝ) < 30 by norm_num) (show (0 : ℝ) < 30 by norm_num) g0 g1 gs h (.inl (by norm_num)) (.inl (by norm_num)) untied_area (by decide)
    beamGrid_clear.1 (fun w => absurd w (by decide)) (fun w => absurd w (by decide)) rfl (fun row hm => beam_clear (by linarith [ge row hm]))
  refine ⟨rows, r, R, Q, zt, zl, h, ne, ht, hl, a, b, fun j row hj => ?_⟩
  obtain ⟨S, zc, s1, s2, -, s3⟩ := c j row hj
  have far : ¬ 1000 * row.distance_km < beam.dlsa := by
    rw [beam_dlsa]
    have := ge row (List.mem_of_getElem? hj)
    have := beam_r.2
    push Not; linarith
  rw [if_neg far, Link.lossWith_reference] at s3
  exact ⟨S, zc, s1, s2, s3.2⟩

end Itm.Props

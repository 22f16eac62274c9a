import Verif.Lemmas.Band
import Verif.Lemmas.P2P
import Verif.Props.C06
import Verif.Props.C09
import Verif.Props.C38
import Verif.Props.C45
import Verif.Props.C73

/-! C80: every prediction lies in a known band around free space. -/

namespace Itm.Props
open Itm Itm.Spec

theorem avar_band {p q : PropSt ℝ} {a ar zt zl zc : ℝ} {md : ℤ} (hi : CacheInv p) (h : avar zt zl zc p = .ok (a, q)) (har : p.aref = some ar) (h0 : 0 ≤ ar)
    (hmd : p.mdvar = some md) (hd : 0 ≤ p.dist) (hh : 0 ≤ p.dh ∨ (decodeMode md).1.wl = true) :
    (|zt| ≤ 3.1 → |zl| ≤ 3.1 → |zc| ≤ 3.1 → (-24 ≤ a ∧ a ≤ ar + 160) ∧ ((decodeMode md).1.wl = true → -21 ≤ a ∧ a ≤ ar + 130)) ∧
    (|zt| ≤ 4.8 → |zl| ≤ 4.8 → |zc| ≤ 4.8 → -38.2 ≤ a ∧ a ≤ ar + 255) := by
  obtain ⟨c, m, g, x, v, ar', k, md', hf, har', hk, hmd', hm, -, -, hx, -, -, hvc, -, rfl⟩ := avar_real hi h
  rw [har] at har'
  obtain rfl := Option.some.inj har'
  rw [hmd] at hmd'
  obtain rfl := Option.some.inj hmd'
  unfold freshSetup at hf
  rw [hk, hmd] at hf
  simp only [need_some, ok_bind] at hf
  obtain ⟨c', hc, hf⟩ := bind_eq_ok.1 hf
  obtain ⟨g', hg, hf⟩ := bind_eq_ok.1 hf
  obtain ⟨x', -, hf⟩ := bind_eq_ok.1 hf
  obtain ⟨v', -, hf⟩ := bind_eq_ok.1 hf
  rw [pure_ok, ok_inj] at hf
  simp only [Prod.mk.injEq] at hf
  obtain ⟨rfl, -, rfl, -, -⟩ := hf
  rw [← hm] at hh ⊢
  exact quantile_band (pyGet_mem hc) hg hvc hx hd hh _ h0

/-- **C80** As long as no deviate is beyond 3.1 (the limit `avar` warns of), no quantile lies more than 24 dB below free space nor more than 160 dB
above the reference attenuation: every climate, mode, frequency, distance and terrain, every reachable dictionary. -/
theorem C80_quantile {p₀ p q : PropSt ℝ} {a ar zt zl zc : ℝ} (h5 : p₀.lvar = 5) (hr : Reach p₀ p) (h : avar zt zl zc p = .ok (a, q))
    (har : p.aref = some ar) (h0 : 0 ≤ ar) (hd : 0 ≤ p.dist) (hh : 0 ≤ p.dh) (ht : |zt| ≤ 3.1) (hl : |zl| ≤ 3.1) (hc : |zc| ≤ 3.1) :
    -24 ≤ a ∧ a ≤ ar + 160 := by
  have hi := cacheInv_reach (by omega : 5 ≤ p₀.lvar) hr
  obtain ⟨c, m, g, x, v, ar', k, md, -, -, -, hmd, -⟩ := avar_real hi h
  exact ((avar_band hi h har h0 hmd hd (.inl hh)).1 ht hl hc).1

/-- **C80** For the deviates of any percentages whatever: at most 38.2 dB below free space, at most 255 dB above the reference. -/
theorem C80_percent {p₀ p q : PropSt ℝ} {a ar zt zl zc ft fl fc : ℝ} (h5 : p₀.lvar = 5) (hr : Reach p₀ p) (h : avar zt zl zc p = .ok (a, q))
    (har : p.aref = some ar) (h0 : 0 ≤ ar) (hd : 0 ≤ p.dist) (hh : 0 ≤ p.dh) (ht : qerfi [ft] = .ok [zt]) (hl : qerfi [fl] = .ok [zl])
    (hc : qerfi [fc] = .ok [zc]) : -38.2 ≤ a ∧ a ≤ ar + 255 := by
  have hi := cacheInv_reach (by omega : 5 ≤ p₀.lvar) hr
  obtain ⟨c, m, g, x, v, ar', k, md, -, -, -, hmd, -⟩ := avar_real hi h
  obtain ⟨U, -, u2, -, -, u⟩ := C05_qerfi_saturates
  have b : ∀ {f z : ℝ}, qerfi [f] = .ok [z] → |z| ≤ 4.8 := fun {f z} e => by
    obtain ⟨e1, e2⟩ := u f z e
    rw [abs_le]; constructor <;> linarith
  exact (avar_band hi h har h0 hmd hd (.inl hh)).2 (b ht) (b hl) (b hc)

theorem deviate_any {x : ℤ} {z : ℝ} (h : DeviateOf x z) : |z| ≤ 4.8 := by
  obtain ⟨U, -, u2, -, -, u⟩ := C05_qerfi_saturates
  obtain ⟨e1, e2⟩ := u _ z h
  rw [abs_le]; constructor <;> linarith

theorem dev_le_self {r : ℝ} (h : 0 ≤ r) : dev r ≤ r := by
  unfold dev
  have : 0 ≤ ((0.010328 * r + 0.802853) * r + 2.515516698) / (((0.001308 * r + 0.189269) * r + 1.432788) * r + 1) := by positivity
  linarith

theorem deviate_one : ∃ u : ℝ, u ≤ 3.1 ∧ qerfi [(0.01 : ℝ)] = .ok [u] := by
  refine ⟨_, ?_, qerfi_single _⟩
  rw [if_neg (by norm_num)]
  have hc : clipq 0.01 = 0.01 := by unfold clipq; norm_num
  rw [hc]
  have hl : Real.log 100 ≤ 4.62 := by
    rw [show (100 : ℝ) = 2 ^ 6 * (25 / 16) by norm_num, Real.log_mul (by norm_num) (by norm_num), Real.log_pow]
    have h1 := Real.log_two_lt_d9
    have h2 : Real.log (25 / 16) ≤ 25 / 16 - 1 := Real.log_le_sub_one_of_pos (by norm_num)
    have h3 : Real.log (25 / 16) ≤ 0.4607 := by
      rw [show (25 / 16 : ℝ) = (5 / 4) ^ 2 by norm_num, Real.log_pow]
      have : Real.log (5 / 4) ≤ 1 / 4 := by have := Real.log_le_sub_one_of_pos (show (0 : ℝ) < 5 / 4 by norm_num); linarith
      have h4 : Real.log (5 / 4) ≤ 0.2303 := by
        rw [Real.log_le_iff_le_exp (by norm_num)]
        have := Real.sum_le_exp_of_nonneg (x := 0.2303) (by norm_num) 4
        refine le_trans ?_ this
        simp [Finset.sum_range_succ, Nat.factorial]
        norm_num
      push_cast; linarith
    push_cast
    norm_num at *
    linarith
  have hd : devt 0.01 ≤ 3.05 := by
    unfold devt
    refine (dev_le_self (Real.sqrt_nonneg _)).trans ?_
    rw [Real.sqrt_le_iff]
    refine ⟨by norm_num, ?_⟩
    rw [show (0.01 : ℝ) = 100⁻¹ by norm_num, Real.log_inv]
    norm_num at *
    linarith
  have := round4_near (devt 0.01)
  rw [abs_le] at this
  norm_num at *
  linarith [this.2]

theorem deviate_usual {x : ℤ} {z : ℝ} (h1 : 1 ≤ x) (h99 : x ≤ 99) (h : DeviateOf x z) : |z| ≤ 3.1 := by
  obtain ⟨u, hu, e⟩ := deviate_one
  have e' := C05_qerfi_antisymmetric _ _ e
  have a1 : (1 : ℝ) ≤ x := by exact_mod_cast h1
  have a2 : (x : ℝ) ≤ 99 := by exact_mod_cast h99
  unfold DeviateOf at h
  rw [rofInt] at h
  have b1 := C05_qerfi_antitone _ _ _ _ (by norm_num; linarith) e h
  have b2 := C05_qerfi_antitone _ _ _ _ (by norm_num; linarith) h e'
  rw [abs_le]; constructor <;> linarith

theorem dist_of_freeSpace {wn dist fs : ℝ} (hw : 0 < wn) (h : freeSpace wn dist = .ok fs) : 0 < dist := by
  unfold freeSpace at h
  obtain ⟨l, hl, -⟩ := bind_eq_ok.1 h
  obtain ⟨h1, -⟩ := npLog_eq_ok.1 hl
  norm_num at h1
  by_contra hc
  rw [not_lt] at hc
  nlinarith

/-- **C80** (point to point) Whenever `p2p.py` answers, the loss it prints for whatever reliability and confidence lies between the free-space loss
less 38.2 dB and the free-space loss plus the reference attenuation plus 255 dB; for levels from 1 to 99 percent, less 21 dB and plus 130 dB.
Nothing is asked of the link. -/
theorem C80_p2p {qc qr : List Int} {p r : PropSt ℝ} {profile : List ℝ} {rows : List (P2PRow ℝ)} {msgs : List P2PMsg}
    (h : itmlogicP2PAt qc qr p profile = .ok (rows, msgs, r)) :
    ∃ s q fs ar, p2pSetup p profile = .ok s ∧ qlrpfl s = .ok q ∧ freeSpace q.wn q.dist = .ok fs ∧ q.aref = some ar ∧ 0 ≤ ar ∧ ∀ row ∈ rows,
      (fs - 38.2 ≤ row.loss ∧ row.loss ≤ fs + ar + 255) ∧
      (1 ≤ row.reliability → row.reliability ≤ 99 → 1 ≤ row.confidence → row.confidence ≤ 99 → fs - 21 ≤ row.loss ∧ row.loss ≤ fs + ar + 130) := by
  obtain ⟨s, q, fs, zr, zc, hs, hq, hfs, _, hzr, hzc, hr⟩ := itmlogicP2PAt_ok h
  have P := p2pPrep_ok hs hq
  have F := p2pRows_for P.inv hzr hzc hr
  have hq' := hq
  unfold qlrpfl at hq'
  obtain ⟨t, -, ht⟩ := bind_eq_ok.1 hq'
  obtain ⟨ar, har, h0⟩ := C18_aref_nonneg ht
  refine ⟨s, q, fs, ar, hs, hq, hfs, har, h0, ?_⟩
  clear hr hzr hzc h
  generalize pairs qr qc = X at F
  induction F with
  | nil => intro row hrow; cases hrow
  | @cons x row X rows e _ ih =>
    intro row' hrow
    rcases List.mem_cons.1 hrow with rfl | hrow
    · obtain ⟨-, e1, e2, z1, z2, a, q', d1, d2, ha, hloss⟩ := e
      have hw : 0 < q.wn := by
        obtain ⟨_, _, _, _, _, _, _, _, _, _, _, _, _, _, hw, _⟩ := avar_real P.inv ha
        exact hw
      have hwl : (decodeMode 11).1.wl = true := rfl
      have z0 : ∀ {Z : ℝ}, 0 ≤ Z → |(0.0 : ℝ)| ≤ Z := fun {Z} hZ => by norm_num; exact hZ
      obtain ⟨b1, b2⟩ := avar_band P.inv ha har h0 P.mdvar (dist_of_freeSpace hw hfs).le (.inr hwl)
      rw [hloss, e1, e2]
      constructor
      · obtain ⟨c1, c2⟩ := b2 (deviate_any d1) (z0 (by norm_num)) (deviate_any d2)
        constructor <;> linarith
      · intro r1 r2 c1 c2
        obtain ⟨c1, c2⟩ := (b1 (deviate_usual r1 r2 d1) (z0 (by norm_num)) (deviate_usual c1 c2 d2)).2 hwl
        constructor <;> linarith
    · exact ih row' hrow

/-! ### The area runner -/

theorem forall₂_right {β γ : Type} {R : β → γ → Prop} {l : List β} {m : List γ} {y : γ} (h : List.Forall₂ R l m) (hy : y ∈ m) : ∃ x ∈ l, R x y := by
  induction h with
  | nil => cases hy
  | cons e _ ih =>
    rcases List.mem_cons.1 hy with rfl | hy
    · exact ⟨_, List.mem_cons_self, e⟩
    · obtain ⟨x, hx, e⟩ := ih hy
      exact ⟨x, List.mem_cons_of_mem _ hx, e⟩

/-- A row of the loop, with what the reference attenuation and the terrain irregularity are. -/
theorem areaLoop_band {zt zl : ℝ} {zc : List (Int × ℝ)} {ndc : Int} {ds2 : ℝ} {k : Nat} {jd : Int} {d dt : ℝ} {p r : PropSt ℝ}
    {rows : List (AreaRow ℝ)} (hi : CacheInv p) (hm : 0 ≤ p.mdp) (h : areaLoop zt zl zc ndc ds2 k jd d dt p = .ok (rows, r)) :
    ∀ row ∈ rows, ∃ q fs a ar q' z, CacheInv q ∧ q.wn = p.wn ∧ q.dh = p.dh ∧ q.dist = row.distance_km * 1000.0 ∧ q.aref = some ar ∧ 0 ≤ ar ∧ freeSpace q.wn q.dist = .ok fs ∧
      (row.confidence, z) ∈ zc ∧ avar zt zl z q = .ok (a, q') ∧ row.loss = fs + a := by
  induction k generalizing jd d dt p rows with
  | zero =>
    unfold areaLoop at h
    rw [pure_ok, ok_inj] at h
    obtain ⟨rfl, rfl⟩ := Prod.mk.inj h
    intro row hrow; cases hrow
  | succ k ih =>
    unfold areaLoop at h
    obtain ⟨q, hq, h⟩ := bind_eq_ok.1 h
    obtain ⟨fs, hfs, h⟩ := bind_eq_ok.1 h
    obtain ⟨⟨r1, q1⟩, h1, h⟩ := bind_eq_ok.1 h
    obtain ⟨⟨r2, q2⟩, h2, h⟩ := bind_eq_ok.1 h
    dsimp only at h
    rw [pure_ok, ok_inj] at h
    obtain ⟨rfl, rfl⟩ := Prod.mk.inj h
    have hiq : CacheInv q := cacheInv_lrFrame (hi.raise (n := max 1 p.lvar) (by omega)) (by simp only; omega) (lrprop_frame hq)
    have hdq := lrprop_dist hq
    have hm' : (0:Int) ≤ ({ p with lvar := max 1 p.lvar } : PropSt ℝ).mdp := hm
    rw [if_pos hm', if_pos hm'] at hdq
    have hp : q.wn = p.wn ∧ q.dh = p.dh := by
      obtain ⟨_, _, _, _, _, _, _, rfl⟩ := lrprop_frame hq
      exact ⟨rfl, rfl⟩
    obtain ⟨ar, har, h0⟩ := C18_aref_nonneg hq
    obtain ⟨⟨i1, k1, f1⟩, g1⟩ := areaInner_ok hiq h1
    have hp1 : (q1.wn = p.wn ∧ q1.dh = p.dh) ∧ 0 ≤ q1.mdp := by
      obtain ⟨_, _, _, _, _, _, _, _, rfl⟩ := f1
      exact ⟨hp, hdq.2.ge⟩
    intro row hrow
    rcases List.mem_append.1 hrow with hrow | hrow
    · obtain ⟨c, hc, ed, ec, a, ea, el⟩ := forall₂_right g1 hrow
      obtain ⟨q', hq'⟩ := ans_avar hiq ea
      exact ⟨q, fs, a, ar, q', c.2, hiq, hp.1, hp.2, by rw [ed]; exact hdq.1, har, h0, hfs, by rw [ec]; exact hc, hq', el⟩
    · obtain ⟨q3, fs3, a3, ar3, q4, z, g1, g2, g3, g⟩ := ih i1 hp1.2 h2 row hrow
      exact ⟨q3, fs3, a3, ar3, q4, z, g1, g2.trans hp1.1.1, g3.trans hp1.1.2, g⟩

/-- **C80** (area) Whenever `area.py` answers, each loss lies between the free-space loss of its distance less 38.2 dB and this plus a nonnegative
reference attenuation plus 255 dB; for levels from 1 to 99 percent, less 24 dB and plus 160 dB. -/
theorem C80_area {qt ql : Int} {qc : List Int} {g : Grid ℝ} {kst : Pair Int} {p r : PropSt ℝ} {rows : List (AreaRow ℝ)}
    (h : itmlogicAreaAt qt ql qc g kst p = .ok (rows, r)) :
    ∀ row ∈ rows, ∃ fs ar : ℝ, freeSpace (p.fmhz / 47.7) (row.distance_km * 1000.0) = .ok fs ∧ 0 ≤ ar ∧ (∃ q : PropSt ℝ, q.aref = some ar ∧
        AreaRowFor q row.distance_km fs qt ql row.confidence row) ∧ (fs - 38.2 ≤ row.loss ∧ row.loss ≤ fs + ar + 255) ∧
      (1 ≤ qt → qt ≤ 99 → 1 ≤ ql → ql ≤ 99 → 1 ≤ row.confidence → row.confidence ≤ 99 → fs - 24 ≤ row.loss ∧ row.loss ≤ fs + ar + 160) := by
  obtain ⟨zt, zl, zc, s, q, dt, ht, hl', hzc, hs, hq, -, hl⟩ := itmlogicAreaAt_ok h
  have hdh := (C38_only_usable hq).1
  rw [qlra_eq] at hq
  obtain ⟨⟨x, y, w⟩, -, hq⟩ := bind_eq_ok.1 hq
  dsimp only at hq
  rw [pure_ok, ok_inj, prepMarks_eq] at hq
  rw [areaSetup_eq] at hs
  obtain ⟨z, -, hs⟩ := bind_eq_ok.1 hs
  rw [pure_ok, ok_inj] at hs
  have hi : CacheInv q := cacheInv_of_five (by rw [← hq, ← hs]; simp)
  have hdq : q.dh = s.dh := by rw [← hq]
  intro row hrow
  obtain ⟨q3, fs, a, ar, q', zz, i3, w3, d3, e3, har, h0, hfs, hz, ha, hloss⟩ := areaLoop_band hi (by rw [← hq]; simp) hl row hrow
  have D : DeviateOf row.confidence zz := by
    obtain ⟨x, -, e, d⟩ := forall₂_right (zip_deviates hzc) hz
    simp only at e d
    rw [e]; exact d
  have hw : 0 < q3.wn := by
    obtain ⟨_, _, _, _, _, _, _, _, _, _, _, _, _, _, hw, _⟩ := avar_real i3 ha
    exact hw
  obtain ⟨c, m, g', x', v, ar', k, md, -, -, -, hmd, -⟩ := avar_real i3 ha
  obtain ⟨b1, b2⟩ := avar_band i3 ha har h0 hmd (dist_of_freeSpace hw hfs).le (.inl (by rw [d3, hdq]; exact hdh))
  refine ⟨fs, ar, ?_, h0, ⟨q3, har, rfl, rfl, zt, zl, zz, a, q', ht, hl', D, ha, hloss⟩, ?_, ?_⟩
  · have : q.wn = p.fmhz / 47.7 := by rw [← hq, ← hs]
    rw [← this, ← w3, ← e3]; exact hfs
  · obtain ⟨c1, c2⟩ := b2 (deviate_any ht) (deviate_any hl') (deviate_any D)
    rw [hloss]; constructor <;> linarith
  · intro t1 t2 l1 l2 c1 c2
    obtain ⟨c1, c2⟩ := (b1 (deviate_usual t1 t2 ht) (deviate_usual l1 l2 hl') (deviate_usual c1 c2 D)).1
    rw [hloss]; constructor <;> linarith

/-- `demo` meets the hypotheses of C80. -/
example : ∃ a q, avar 3 (-3) 2 demo = .ok (a, q) ∧ -24 ≤ a ∧ a ≤ 20 + 160 := by
  obtain ⟨a, q, h⟩ := demo_answers 3 (-3) 2 12 20
  exact ⟨a, q, h, C80_quantile (p₀ := demo) rfl .refl h rfl (by norm_num) (by norm_num [demo]) (by norm_num [demo]) (by norm_num [abs_of_pos])
    (by norm_num [abs_of_pos]) (by norm_num [abs_of_pos])⟩

/-- The runners answer on the documented link and on a link of the area runner, so C80 speaks of their rows. -/
example (qc qr : List Int) (p : PropSt ℝ) : ∃ rows msgs r, itmlogicP2PAt qc qr (p2pUser p) docsProfile = .ok (rows, msgs, r) := docs_answered qc qr p

example : ∃ rows r, itmlogicArea gridDefault ⟨2, 2⟩ areaLink = .ok (rows, r) ∧ rows.length = 66 ∧ ∀ row ∈ rows, ∃ fs ar : ℝ,
    freeSpace (areaLink.fmhz / 47.7) (row.distance_km * 1000.0) = .ok fs ∧ 0 ≤ ar ∧ fs - 38.2 ≤ row.loss ∧ row.loss ≤ fs + ar + 255 := by
  obtain ⟨rows, r, h⟩ := C46_accepted_partial areaLink_level.1 ⟨2, 2⟩ 50 50 areaQc
  refine ⟨rows, r, h, (C46_shipped h).1, fun row hrow => ?_⟩
  obtain ⟨fs, ar, h1, h2, -, h3, -⟩ := C80_area h row hrow
  exact ⟨fs, ar, h1, h2, h3⟩

end Itm.Props

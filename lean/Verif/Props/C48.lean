import Verif.Props.C42

/-! C48: the path classification printed by the point-to-point runner. -/

namespace Itm.Props
open Itm Itm.Spec

/-- Is the message a path class? -/
def isClass : P2PMsg → Bool
  | .lineOfSight | .singleHorizon | .doubleHorizon => true
  | .diffractionDominant | .scatterDominant => false

section
variable {α : Type} [PyNum α]

/-- What `qlrpfl` leaves for the classification. -/
theorem qlrpfl_keys {s q : PropSt α} (h : qlrpfl s = .ok q) :
    ∃ hz, q.hor = some hz ∧ (hz.dlsa ≤ q.dist → q.scat.isSome) := by
  unfold qlrpfl at h
  rw [qlrpflPrep_eq] at h
  obtain ⟨r, hr, h⟩ := bind_eq_ok.1 h
  obtain ⟨g, _, hr⟩ := bind_eq_ok.1 hr
  rw [pure_ok, ok_inj] at hr
  have hm : r.mdp = -1 := by rw [← hr, prepMarks_eq]
  rw [lrprop_setup (by omega)] at h
  obtain ⟨st, _, h⟩ := bind_eq_ok.1 h
  obtain ⟨c, hc, h⟩ := bind_eq_ok.1 h
  rw [pure_ok, ok_inj] at h
  obtain ⟨I, _, _, _, t2⟩ := runC_inv (freshCInv _ _ _ _) hc
  refine ⟨st.h, by rw [← h]; rfl, fun hd => ?_⟩
  have e1 : q.dist = distOf r 0.0 := by rw [← h]; rfl
  have e2 : q.scat = c.scat := by rw [← h]; rfl
  rw [e1] at hd
  obtain ⟨x, _, hx, _, _⟩ := I.scat (t2 (.inr hd))
  rw [e2, hx]; rfl

/-- **C48** After a successful `qlrpfl` the classification does not raise; in particular `dx`, which only the beyond-horizon stage of `lrprop`
writes, is present whenever it is read. -/
theorem C48_never_raises (ho : Ordered α) {s q : PropSt α} (h : qlrpfl s = .ok q) : ∃ msgs, p2pReport q = .ok msgs := by
  obtain ⟨hz, hh, hs⟩ := qlrpfl_keys h
  unfold p2pReport
  rw [hh, need_some, ok_bind]
  dsimp only
  by_cases hd : q.dist ≤ hz.dlsa
  · rw [if_pos hd]; exact ⟨_, rfl⟩
  · rw [if_neg hd]
    have hd' : hz.dlsa ≤ q.dist := ho.le_of_lt _ _ ((ho.lt_or_le hz.dlsa q.dist).resolve_right hd)
    obtain ⟨sc, e⟩ := Option.isSome_iff_exists.1 (hs hd')
    rw [e, need_some, ok_bind]
    split_ifs <;> exact ⟨_, rfl⟩

/-- **C48** Exactly one path class is printed, first; at most one further message follows. -/
theorem C48_one_class {q : PropSt α} {msgs : List P2PMsg} (h : p2pReport q = .ok msgs) :
    (msgs.filter isClass).length = 1 ∧ (∃ c rest, msgs = c :: rest ∧ isClass c = true ∧ rest.length ≤ 1 ∧ ∀ m ∈ rest, isClass m = false) := by
  unfold p2pReport at h
  obtain ⟨hz, _, h⟩ := bind_eq_ok.1 h
  obtain ⟨c, hc⟩ : ∃ c, c = (if (pyMax (q.dist - hz.dlsa - 0.5 * q.pfl.xi) 0.0 - pyMax (-(q.dist - hz.dlsa) - 0.5 * q.pfl.xi) 0.0 : α) < 0.0 then P2PMsg.lineOfSight
      else if pyEq (pyMax (q.dist - hz.dlsa - 0.5 * q.pfl.xi) 0.0 - pyMax (-(q.dist - hz.dlsa) - 0.5 * q.pfl.xi) 0.0 : α) 0.0 then P2PMsg.singleHorizon
      else P2PMsg.doubleHorizon) := ⟨_, rfl⟩
  have hcl : isClass c = true := by rw [hc]; split_ifs <;> rfl
  have key : ∀ l : List P2PMsg, l.length ≤ 1 → (∀ m ∈ l, isClass m = false) → msgs = c :: l →
      (msgs.filter isClass).length = 1 ∧ (∃ c rest, msgs = c :: rest ∧ isClass c = true ∧ rest.length ≤ 1 ∧ ∀ m ∈ rest, isClass m = false) := by
    intro l h1 h2 e
    subst e
    refine ⟨?_, c, l, rfl, hcl, h1, h2⟩
    rw [List.filter_cons_of_pos hcl, List.length_cons, List.filter_eq_nil_iff.2 (fun a ha => by rw [h2 a ha]; simp)]
    rfl
  dsimp only at h
  rw [← hc] at h
  by_cases hd : q.dist ≤ hz.dlsa
  · rw [if_pos hd, pure_ok, ok_inj] at h
    exact key [.diffractionDominant] (by simp) (by simp [isClass]) h.symm
  · rw [if_neg hd] at h
    obtain ⟨sc, _, h⟩ := bind_eq_ok.1 h
    split_ifs at h
    · rw [pure_ok, ok_inj] at h
      exact key [.scatterDominant] (by simp) (by simp [isClass]) h.symm
    · rw [pure_ok, ok_inj] at h
      exact key [] (by simp) (by simp) h.symm

end

/-- **C48** The classes mean what they say: the smooth-earth line-of-sight distance `dlsa` is missed by more than half a profile step. -/
theorem C48_class_meaning {q : PropSt ℝ} {hz : Horizon ℝ} {msgs : List P2PMsg} (hx : 0 ≤ q.pfl.xi) (hh : q.hor = some hz) (h : p2pReport q = .ok msgs) :
    (.lineOfSight ∈ msgs ↔ q.dist < hz.dlsa - q.pfl.xi / 2) ∧ (.doubleHorizon ∈ msgs ↔ hz.dlsa + q.pfl.xi / 2 < q.dist) ∧
      (.singleHorizon ∈ msgs ↔ |q.dist - hz.dlsa| ≤ q.pfl.xi / 2) ∧ (.diffractionDominant ∈ msgs ↔ q.dist ≤ hz.dlsa) := by
  unfold p2pReport at h
  rw [hh, need_some, ok_bind] at h
  dsimp only at h
  simp only [pyMax_real, pyEq_real, zero_lit] at h
  have e5 : (0.5 : ℝ) * q.pfl.xi = q.pfl.xi / 2 := by norm_num; ring
  rw [e5] at h
  obtain ⟨t, ht⟩ : ∃ t, t = max (q.dist - hz.dlsa - q.pfl.xi / 2) 0 - max (-(q.dist - hz.dlsa) - q.pfl.xi / 2) 0 := ⟨_, rfl⟩
  rw [← ht] at h
  have t1 : t < 0 ↔ q.dist < hz.dlsa - q.pfl.xi / 2 := by
    rw [ht]
    constructor
    · intro h0
      by_contra hc
      rw [max_eq_right (a := -(q.dist - hz.dlsa) - q.pfl.xi / 2) (by linarith)] at h0
      have := le_max_right (q.dist - hz.dlsa - q.pfl.xi / 2) 0
      linarith
    · intro h0
      rw [max_eq_right (a := q.dist - hz.dlsa - q.pfl.xi / 2) (by linarith), max_eq_left (a := -(q.dist - hz.dlsa) - q.pfl.xi / 2) (by linarith)]
      linarith
  have t2 : t = 0 ↔ |q.dist - hz.dlsa| ≤ q.pfl.xi / 2 := by
    rw [ht, abs_le]
    constructor
    · intro h0
      constructor
      · by_contra hc
        rw [max_eq_right (a := q.dist - hz.dlsa - q.pfl.xi / 2) (by linarith), max_eq_left (a := -(q.dist - hz.dlsa) - q.pfl.xi / 2) (by linarith)] at h0
        linarith
      · by_contra hc
        rw [max_eq_left (a := q.dist - hz.dlsa - q.pfl.xi / 2) (by linarith), max_eq_right (a := -(q.dist - hz.dlsa) - q.pfl.xi / 2) (by linarith)] at h0
        linarith
    · rintro ⟨a, b⟩
      rw [max_eq_right (by linarith), max_eq_right (by linarith), sub_zero]
  have t3 : (¬ t < 0 ∧ ¬ t = 0) ↔ hz.dlsa + q.pfl.xi / 2 < q.dist := by
    rw [t1, t2, abs_le]
    constructor
    · rintro ⟨a, b⟩
      by_contra hc
      exact b ⟨by linarith, by linarith⟩
    · intro a
      exact ⟨by linarith, fun b => by linarith [b.2]⟩
  rw [← t1, ← t2, ← t3]
  clear ht t1 t2 t3
  by_cases hd : q.dist ≤ hz.dlsa
  · rw [if_pos hd, pure_ok, ok_inj] at h
    subst h
    by_cases c1 : t < 0
    · have : t ≠ 0 := c1.ne
      simp [c1, hd, this]
    · by_cases c2 : t = 0
      · simp [c2, hd]
      · simp [c1, c2, hd]
  · rw [if_neg hd] at h
    obtain ⟨sc, _, h⟩ := bind_eq_ok.1 h
    by_cases c3 : sc.dx < q.dist
    · rw [if_pos c3, pure_ok, ok_inj] at h
      subst h
      by_cases c1 : t < 0
      · have : t ≠ 0 := c1.ne
        simp [c1, hd, this]
      · by_cases c2 : t = 0
        · simp [c2, hd]
        · simp [c1, c2, hd]
    · rw [if_neg c3, pure_ok, ok_inj] at h
      subst h
      by_cases c1 : t < 0
      · have : t ≠ 0 := c1.ne
        simp [c1, hd, this]
      · by_cases c2 : t = 0
        · simp [c2, hd]
        · simp [c1, c2, hd]

/-- **C48** (refuted) Every path that is classified as line of sight is at the same time reported as dominated by diffraction. -/
theorem C48_refuted {q : PropSt ℝ} {hz : Horizon ℝ} {msgs : List P2PMsg} (hx : 0 ≤ q.pfl.xi) (hh : q.hor = some hz)
    (h : p2pReport q = .ok msgs) (hl : .lineOfSight ∈ msgs) : .diffractionDominant ∈ msgs := by
  obtain ⟨m1, -, -, m4⟩ := C48_class_meaning hx hh h
  rw [m1] at hl
  rw [m4]
  linarith

/-- **C48** (what holds) Diffraction is never reported for a double-horizon path, and scatter never for a line-of-sight path.
Full statement: diffraction is not reported for line-of-sight paths; false, see `C48_refuted`. -/
theorem C48_dominant_partial {q : PropSt ℝ} {hz : Horizon ℝ} {msgs : List P2PMsg} (hx : 0 ≤ q.pfl.xi) (hh : q.hor = some hz)
    (h : p2pReport q = .ok msgs) : (.doubleHorizon ∈ msgs → .diffractionDominant ∉ msgs) ∧ (.lineOfSight ∈ msgs → .scatterDominant ∉ msgs) := by
  obtain ⟨m1, m2, -, m4⟩ := C48_class_meaning hx hh h
  refine ⟨fun a => ?_, fun a b => ?_⟩
  · rw [m2] at a; rw [m4]; linarith
  · have hd := m4.1 (C48_refuted hx hh h a)
    unfold p2pReport at h
    rw [hh, need_some, ok_bind] at h
    dsimp only at h
    rw [if_pos hd, pure_ok, ok_inj] at h
    rw [← h] at b
    split_ifs at b <;> simp at b

/-! ### a line-of-sight path -/

/-- Two 400 m antennas, 100 km apart, level two-point profile; smooth-earth horizons at 80 km each. -/
noncomputable def losLink : PropSt ℝ := { blank 0 smoothIn with pfl := { np := 1, xi := 100000, z := [0, 0] } }

theorem smooth_setup_p2p : setupC (-1) smoothIn = setupC 1 smoothIn := by
  have hx : (0:ℝ) < 80000 := by norm_num
  have g := tangent_ground hx (by rw [termWa_smooth]; norm_num)
  obtain ⟨f0, f1, hf0, hf1, hs⟩ := setupC_total (mdp := 1) (tangent_adm hx) g
  obtain ⟨g0, g1, hg0, hg1, hs'⟩ := setupC_total (mdp := -1) (tangent_adm hx) g
  rw [hf0, ok_inj] at hg0
  rw [hf1, ok_inj] at hg1
  subst hg0; subst hg1
  have e : diffR (-1) (tangentIn 80000) f0 f1 = diffR 1 (tangentIn 80000) f0 f1 := by
    unfold diffR
    rw [show (tangentIn 80000).he.x0 * (tangentIn 80000).he.x1 - (tangentIn 80000).hg.x0 * (tangentIn 80000).hg.x1 = 0 from sub_self _,
      zero_div, zero_div]
  unfold smoothIn
  rw [hs, hs', e]

theorem losLink_runs : ∃ q, qlrpfl losLink = .ok q ∧ q.hor = some (horR smoothIn) ∧ q.dist = 100000 ∧ q.pfl.xi = 100000 := by
  have hκ : losLink.gme = 1.25e-7 := rfl
  obtain ⟨q, hq, P⟩ := qlrpflPrep_ok (p := losLink) (n := 1) le_rfl rfl (by norm_num [losLink]) (by simp [losLink])
    (show (0:ℝ) < 400 by norm_num) (show (0:ℝ) < 400 by norm_num) (by rw [hκ]; norm_num)
  obtain ⟨the, dl, dh, x1, x2, hz, -, -, x10, x12, x2n, edh, -, qdh, hc⟩ := P.data
  have hrest := P.rest
  have hxi : (0:ℝ) < losLink.pfl.xi := by norm_num [losLink]
  have hzz : ∀ j, j < losLink.pfl.z.length → losLink.pfl.z.getD j 0 = (0:ℝ) + 0 * j := by
    intro j hj
    have : j < 2 := hj
    interval_cases j <;> simp [losLink]
  have hnr : (losLink.pfl.np : ℝ) = (1 : ℕ) := by simp [losLink]
  have hnl : losLink.pfl.np < losLink.pfl.z.length := by simp [losLink]
  have hx2 : x2 ≤ losLink.pfl.np * losLink.pfl.xi := by rw [hnr]; exact x2n.le
  have e0 : dh = 0 := by
    have := C37_straight (p := losLink.pfl) (x1 := x1) (x2 := x2) hxi hnl x10.le hx2 hzz
    rw [edh, ok_inj] at this
    exact this
  have hfl : ⌊x1 / losLink.pfl.xi⌋ < ⌈x2 / losLink.pfl.xi⌉ := by
    have a := Int.floor_le (x1 / losLink.pfl.xi)
    have b := Int.le_ceil (x2 / losLink.pfl.xi)
    have c : x1 / losLink.pfl.xi < x2 / losLink.pfl.xi := div_lt_div_of_pos_right x12 hxi
    have : ((⌊x1 / losLink.pfl.xi⌋ : ℤ) : ℝ) < ((⌈x2 / losLink.pfl.xi⌉ : ℤ) : ℝ) := by linarith
    exact_mod_cast this
  have hline := C33_straight (p := losLink.pfl) (x1 := x1) (x2 := x2) hxi hnl x10.le hx2 hfl hzz
  rw [zlsq1_line hxi hnl x10.le x12 hx2, ok_inj, Prod.mk.injEq, hnr, zero_mul, add_zero] at hline
  have hdl : dl = ⟨(1 : ℕ) * losLink.pfl.xi, (1 : ℕ) * losLink.pfl.xi⟩ := by
    rcases hz_sum le_rfl rfl hxi (by simp [losLink]) hz with ⟨hdl, -⟩ | ⟨-, -, -, j, j1, j2, -⟩
    · exact hdl
    · omega
  rcases hc with ⟨-, he0, he1, f, ea, eb, ef, h1, h2, h3⟩ | ⟨hne, -⟩
  swap
  · exact absurd hdl hne
  have z0 : losLink.pfl.h 0 = 0 := rfl
  have z1 : losLink.pfl.h (1 - 1) = 0 := rfl
  rw [hline.1, z0] at ea
  rw [hline.2, z1] at eb
  have ea : he0 = 400 := by rw [ea]; unfold effHeight; rw [sub_self, max_self, add_zero]; rfl
  have eb : he1 = 400 := by rw [eb]; unfold effHeight; rw [sub_self, max_self, add_zero]; rfl
  have rh : smoothReach 1.25e-7 400 = 80000 := by
    unfold smoothReach
    rw [show (2 * 400 / 1.25e-7 : ℝ) = 80000 ^ 2 by norm_num]; exact Real.sqrt_sq (by norm_num)
  have rr : roughHorizon 1.25e-7 0 400 = 80000 := by
    unfold roughHorizon; rw [rh]; simp
  have ra : roughAngle 1.25e-7 0 400 = -0.01 := by
    unfold roughAngle; rw [rr, rh]; norm_num
  have ef : f = 1 := by
    rw [ef, e0, ea, eb, hκ]
    unfold stretch
    rw [rr, if_neg (by norm_num [losLink])]
  rw [ea, eb, ef, mul_one] at h1
  rw [ea, eb, ef, e0, mul_one, hκ, rr] at h2
  rw [ea, eb, ef, e0, mul_one, hκ, ra] at h3
  have hin : inp q = smoothIn := by
    have qd : q.dh = 0 := by rw [qdh, e0]
    rw [hrest]
    unfold inp
    simp only [h1, h2, h3, qd]
    simp only [losLink, blank, smoothIn, tangentIn]
    norm_num
  have hm : q.mdp = -1 := by rw [hrest]
  have hd : q.dist = 100000 := by rw [hrest]; norm_num [losLink]
  have hdo : distOf q 0.0 = 100000 := by unfold distOf; rw [if_neg (by omega), hd]
  obtain ⟨s, k, x, hs, hh, hsa, hk, -⟩ := smooth_all
  have hr := runC_near (i := smoothIn) (h := s.h) (l := s.l) (D := 100000) (c := { cacheOf q with wlos := false, wscat := false, ascat1 := 0.0 })
    (by rw [hsa]; norm_num) (by norm_num) rfl
  rw [hk] at hr
  obtain ⟨c, hc, ha⟩ := map_ok.1 hr
  have e : lrprop 0.0 q = .ok (setCache { withSetup q s with dist := distOf q 0.0, mdp := mdpOf q, kwx := distKwxC s.l (distOf q 0.0) (lrKwx q s.h) } c) := by
    rw [lrprop_setup (by omega), hin, hm, smooth_setup_p2p, hs, ok_bind, hdo, hc, ok_bind, pure_ok]
  have e' : qlrpfl losLink = .ok (setCache { withSetup q s with dist := distOf q 0.0, mdp := mdpOf q, kwx := distKwxC s.l (distOf q 0.0) (lrKwx q s.h) } c) := by
    unfold qlrpfl; rw [hq, ok_bind]; exact e
  have hxi' : q.pfl.xi = 100000 := by rw [hrest]; rfl
  exact ⟨_, e', congrArg some hh, hdo, hxi'⟩

/-- A path that is both. -/
example : ∃ q msgs, qlrpfl losLink = .ok q ∧ p2pReport q = .ok msgs ∧ .lineOfSight ∈ msgs ∧ .diffractionDominant ∈ msgs := by
  obtain ⟨q, hq, hh, hd, hx⟩ := losLink_runs
  obtain ⟨msgs, hm⟩ := C48_never_raises ordered_real hq
  have hsa : (horR smoothIn).dlsa = 160000 := by unfold smoothIn; rw [tangent_hor (by norm_num)]
  have hx0 : 0 ≤ q.pfl.xi := by rw [hx]; norm_num
  have hl := (C48_class_meaning hx0 hh hm).1.2 (by rw [hd, hsa, hx]; norm_num)
  exact ⟨q, msgs, hq, hm, hl, C48_refuted hx0 hh hm hl⟩

end Itm.Props

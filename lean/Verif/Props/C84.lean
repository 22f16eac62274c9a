import Verif.Props.C82

/-! C84: confidence levels `c` and `100 - c` percent lie symmetrically about the level of 50 percent. -/

namespace Itm.Props
open Itm Spec

/-- All answers of one prepared dictionary. -/
theorem avar_all {p q : PropSt ℝ} {a zt zl zc : ℝ} (hi : CacheInv p) (h : avar zt zl zc p = .ok (a, q)) :
    ∃ zd v ar md, p.mdvar = some md ∧ ∀ {zt zl zc a : ℝ} {q : PropSt ℝ}, avar zt zl zc p = .ok (a, q) →
      a = softR (ar - v.vmd - devR (decodeMode md).1.kdv zd v zt zl zc) := by
  obtain ⟨c, m, g, x, v, ar, k, md, hf, har, hk, hmd, hm, hcg, hw, hx, g1, g2, hvc, hvg, ha⟩ := avar_real hi h
  refine ⟨c.zd, v, ar, md, hmd, ?_⟩
  intro zt' zl' zc' a' q' h'
  obtain ⟨c', m', g', x', v', ar', k', md', hf', har', hk', hmd', hm', _, _, _, _, _, _, _, ha'⟩ := avar_real hi h'
  rw [hf, ok_inj] at hf'
  simp only [Prod.mk.injEq] at hf'
  obtain ⟨rfl, rfl, rfl, rfl, rfl⟩ := hf'
  rw [har] at har'
  obtain rfl : ar = ar' := by simpa using har'
  rw [← hm]; exact ha'

/-- Outside the single message mode the deviation from the median is odd in the confidence deviate, up to what does not depend on it. -/
theorem devR_odd {kdv : ℤ} (hk : kdv ≠ 0) (zd : ℝ) (v : VarC ℝ) (zt zl zc : ℝ) :
    devR kdv zd v zt zl zc + devR kdv zd v zt zl (-zc) = 2 * devR kdv zd v zt zl 0 := by
  unfold devR vsR
  simp only [if_neg hk]
  have e1 : (v.sgl * -zc) ^ 2 = (v.sgl * zc) ^ 2 := by ring
  have e2 : (-zc) ^ 2 = zc ^ 2 := by ring
  rw [e1, e2]
  split_ifs <;> ring

theorem softR_nonneg {x : ℝ} (h : 0 ≤ softR x) : 0 ≤ x := by
  by_contra hx
  rw [not_le] at hx
  unfold softR at h
  rw [if_pos hx] at h
  have : x * (29 - x) / (29 - 10 * x) < 0 := div_neg_of_neg_of_pos (by nlinarith) (by linarith)
  linarith

theorem soft_form {x : ℝ} (h : x < 0) : softR x = 1 / 10 * x - 261 / 100 + 7569 / 100 / (29 - 10 * x) := by
  unfold softR
  rw [if_pos h, div_eq_iff (by linarith), add_mul, div_mul_cancel₀ _ (by linarith)]
  ring

/-- The softening of negative values, and its tangent at a negative value. -/
theorem softR_tangent {m : ℝ} (hm : m < 0) (x : ℝ) :
    softR m + (1 / 10 + 7569 / 10 / (29 - 10 * m) ^ 2) * (x - m) ≤ softR x := by
  have hM : 0 < 29 - 10 * m := by linarith
  have neg : ∀ y : ℝ, y ≤ 0 → softR m + (1 / 10 + 7569 / 10 / (29 - 10 * m) ^ 2) * (y - m) ≤ 1 / 10 * y - 261 / 100 + 7569 / 100 / (29 - 10 * y) := by
    intro y hy
    have hY : 0 < 29 - 10 * y := by linarith
    rw [soft_form hm]
    obtain ⟨u, hu⟩ : ∃ u, u = 29 - 10 * m := ⟨_, rfl⟩
    obtain ⟨v, hv⟩ : ∃ v, v = 29 - 10 * y := ⟨_, rfl⟩
    have em : m = (29 - u) / 10 := by rw [hu]; ring
    have ey : y = (29 - v) / 10 := by rw [hv]; ring
    rw [← hu] at hM
    rw [← hv] at hY
    rw [← hu, ← hv, em, ey]
    have : 1 / 10 * ((29 - v) / 10) - 261 / 100 + 7569 / 100 / v - (1 / 10 * ((29 - u) / 10) - 261 / 100 + 7569 / 100 / u +
        (1 / 10 + 7569 / 10 / u ^ 2) * ((29 - v) / 10 - (29 - u) / 10)) = 7569 / 100 * (v - u) ^ 2 / (v * u ^ 2) := by
      field_simp; ring
    have : 0 ≤ 7569 / 100 * (v - u) ^ 2 / (v * u ^ 2) := by positivity
    linarith
  by_cases hx : x < 0
  · rw [soft_form hx]; exact neg x hx.le
  · have ex : softR x = x := by unfold softR; rw [if_neg hx]
    have h0 := neg 0 le_rfl
    have hs : 7569 / 10 / (29 - 10 * m) ^ 2 ≤ 9 / 10 := by
      rw [div_le_iff₀ (by positivity)]; nlinarith
    rw [not_lt] at hx
    rw [ex]
    norm_num at h0
    nlinarith

/-- The softening never moves the middle above the mean. -/
theorem softR_mid {x y m : ℝ} (h : x + y = 2 * m) : 2 * softR m ≤ softR x + softR y := by
  by_cases hm : m < 0
  · have hx := softR_tangent hm x
    have hy := softR_tangent hm y
    have : x - m = -(y - m) := by linarith
    rw [this] at hx
    linarith
  · have ge : ∀ z : ℝ, z ≤ softR z := by
      intro z
      unfold softR
      split_ifs with hz
      · rw [le_div_iff₀ (by linarith)]; nlinarith
      · exact le_rfl
    have e : softR m = m := by unfold softR; rw [if_neg hm]
    rw [e]
    linarith [ge x, ge y]

theorem softR_even {x y m : ℝ} (h : x + y = 2 * m) (hx : 0 ≤ softR x) (hy : 0 ≤ softR y) : softR x + softR y = 2 * softR m := by
  have h1 := softR_nonneg hx
  have h2 := softR_nonneg hy
  unfold softR
  rw [if_neg (by linarith), if_neg (by linarith), if_neg (by linarith), h]

/-- The answers at opposite confidence deviates and at 0. -/
theorem avar_opposite {p q q' q'' : PropSt ℝ} {a a' a'' zt zl zc : ℝ} {md : ℤ} (hi : CacheInv p) (hmd : p.mdvar = some md)
    (hk : (decodeMode md).1.kdv ≠ 0) (h : avar zt zl zc p = .ok (a, q)) (h' : avar zt zl (-zc) p = .ok (a', q'))
    (h'' : avar zt zl 0 p = .ok (a'', q'')) : 2 * a'' ≤ a + a' ∧ (0 ≤ a → 0 ≤ a' → a + a' = 2 * a'') := by
  obtain ⟨zd, v, ar, md', e, f⟩ := avar_all hi h
  rw [hmd] at e
  obtain rfl : md = md' := by simpa using e
  rw [f h, f h', f h'']
  have := devR_odd hk zd v zt zl zc
  have hs : (ar - v.vmd - devR (decodeMode md).1.kdv zd v zt zl zc) + (ar - v.vmd - devR (decodeMode md).1.kdv zd v zt zl (-zc)) =
      2 * (ar - v.vmd - devR (decodeMode md).1.kdv zd v zt zl 0) := by linarith
  exact ⟨softR_mid hs, softR_even hs⟩

/-- **C84** In the accidental, mobile and broadcast modes, the quantiles at opposite confidence deviates lie symmetrically about the one at deviate 0
unless the softening below free space is at work; then the middle one lies below their mean. Every climate, distance, terrain, time and
location deviate, every reachable dictionary. -/
theorem C84_quantile {p₀ p q q' q'' : PropSt ℝ} {a a' a'' zt zl zc : ℝ} {m : ℤ} (h5 : p₀.lvar = 5) (hr : Reach p₀ p) (hm : InMode p m)
    (hm0 : m = 1 ∨ m = 2 ∨ m = 3) (h : avar zt zl zc p = .ok (a, q)) (h' : avar zt zl (-zc) p = .ok (a', q'))
    (h'' : avar zt zl 0 p = .ok (a'', q'')) : 2 * a'' ≤ a + a' ∧ (0 ≤ a → 0 ≤ a' → a + a' = 2 * a'') := by
  have hi := cacheInv_reach (by omega : 5 ≤ p₀.lvar) hr
  obtain ⟨_, _, _, md, hmd, _⟩ := avar_all hi h
  exact avar_opposite hi hmd (by rw [inMode_decode hi hm hmd]; omega) h h' h''

theorem deviate_opposite {x : Int} {z z' : ℝ} (h : DeviateOf x z) (h' : DeviateOf (100 - x) z') : z' = -z := by
  unfold DeviateOf at h h'
  rw [rofInt] at h h'
  have e : ((100 - x : Int) : ℝ) / 100.0 = 1 - (x : ℝ) / 100.0 := by push_cast; norm_num; ring
  rw [e, C05_qerfi_antisymmetric _ _ h, ok_inj] at h'
  simpa using h'.symm

/-- Three rows at complementary levels and at 50 percent. -/
def Balanced (fs x y z : ℝ) : Prop := 2 * z ≤ x + y ∧ (fs ≤ x → fs ≤ y → x + y = 2 * z)

theorem balanced {q : PropSt ℝ} (hi : CacheInv q) {md : ℤ} (hmd : q.mdvar = some md) (hk : (decodeMode md).1.kdv ≠ 0)
    {c c' : Int} {zt zl z z' z0 a a' a0 fs x y w : ℝ} {q1 q2 q3 : PropSt ℝ} (hc : c + c' = 100) (d : DeviateOf c z) (d' : DeviateOf c' z') (d0 : DeviateOf 50 z0)
    (h : avar zt zl z q = .ok (a, q1)) (h' : avar zt zl z' q = .ok (a', q2)) (h0 : avar zt zl z0 q = .ok (a0, q3))
    (ex : x = fs + a) (ey : y = fs + a') (ew : w = fs + a0) : Balanced fs x y w := by
  rw [show c' = 100 - c by omega] at d'
  rw [deviate_opposite d d'] at h'
  rw [(C06_fifty z0).1 d0] at h0
  obtain ⟨h1, h2⟩ := avar_opposite hi hmd hk h h' h0
  rw [ex, ey, ew]
  refine ⟨by linarith, fun hx hy => ?_⟩
  have := h2 (by linarith) (by linarith)
  linarith

/-- **C84** (point to point) In every report, and across reports of the same link: the losses for confidence `c` and `100 - c` percent lie
symmetrically about the loss for 50 percent at the same reliability, if neither is below free space; in any case their mean is not below it. -/
theorem C84_p2p {qc qr : List Int} {p r : PropSt ℝ} {profile : List ℝ} {rows : List (P2PRow ℝ)} {msgs : List P2PMsg}
    (h : itmlogicP2PAt qc qr p profile = .ok (rows, msgs, r)) :
    ∃ s q fs, p2pSetup p profile = .ok s ∧ qlrpfl s = .ok q ∧ freeSpace q.wn q.dist = .ok fs ∧ ∀ x ∈ rows, ∀ y ∈ rows, ∀ w ∈ rows, y.reliability = x.reliability → w.reliability = x.reliability →
      x.confidence + y.confidence = 100 → w.confidence = 50 → Balanced fs x.loss y.loss w.loss := by
  obtain ⟨s, q, fs, zr, zc, hs, hq, hfs, hm, hzr, hzc, hr⟩ := itmlogicP2PAt_ok h
  have P := p2pPrep_ok hs hq
  have f := p2pRows_for P.inv hzr hzc hr
  have g : ∀ row ∈ rows, P2PRowFor q q.d fs row.reliability row.confidence row := by
    intro row hrow
    obtain ⟨x, -, e⟩ := forall₂_right f hrow
    rw [e.2.1, e.2.2.1]; exact e
  refine ⟨s, q, fs, hs, hq, hfs, ?_⟩
  · intro x hx y hy w hw e1 e2 e3 e4
    obtain ⟨-, -, -, z1, z2, a, _, d1, d2, ha, el⟩ := g x hx
    obtain ⟨-, -, -, z1', z2', a', _, d1', d2', ha', el'⟩ := g y hy
    obtain ⟨-, -, -, z1'', z2'', a'', _, d1'', d2'', ha'', el''⟩ := g w hw
    rw [e1] at d1'
    rw [e2] at d1''
    rw [e4] at d2''
    have u : ∀ {x : Int} {u v : ℝ}, DeviateOf x u → DeviateOf x v → v = u := by
      intro x u v hu hv
      unfold DeviateOf at hu hv
      rw [hu, ok_inj] at hv
      simpa using hv.symm
    rw [u d1 d1'] at ha'
    rw [u d1 d1''] at ha''
    exact balanced P.inv P.mdvar (by decide) e3 d2 d2' d2'' ha ha' ha'' el el' el''

/-- **C84** (area) The rows of an area run come in groups, one for each distance of the grid and with one row for each requested level; in each group the
losses for confidence `c` and `100 - c` percent lie symmetrically about the loss for 50 percent, if neither is below free space; in any
case their mean is not below it. -/
theorem C84_area {qt ql : Int} {qc : List Int} {g : Grid ℝ} {kst : Pair Int} {p r : PropSt ℝ} {rows : List (AreaRow ℝ)}
    (h : itmlogicAreaAt qt ql qc g kst p = .ok (rows, r)) :
    ∃ G : List (List (AreaRow ℝ)), rows = G.flatten ∧ ∀ L ∈ G, L.map AreaRow.confidence = qc ∧ ∃ d fs, (∀ row ∈ L, row.distance_km = d) ∧
      freeSpace (p.fmhz / 47.7) (d * 1000.0) = .ok fs ∧
      ∀ x ∈ L, ∀ y ∈ L, ∀ w ∈ L, x.confidence + y.confidence = 100 → w.confidence = 50 → Balanced fs x.loss y.loss w.loss := by
  obtain ⟨zt, zl, zc, s, q, dt, dt', dl', hzc, hs, hq, -, hloop⟩ := itmlogicAreaAt_ok h
  rw [qlra_eq] at hq
  obtain ⟨⟨x, y, w⟩, -, hq⟩ := bind_eq_ok.1 hq
  dsimp only at hq
  rw [pure_ok, ok_inj, prepMarks_eq] at hq
  rw [areaSetup_eq] at hs
  obtain ⟨z, -, hs⟩ := bind_eq_ok.1 hs
  rw [pure_ok, ok_inj] at hs
  have hi : CacheInv q := cacheInv_of_five (by rw [← hq, ← hs]; simp)
  have hmd : q.mdvar = some 3 := by rw [← hq, ← hs]; simp
  have hw : q.wn = p.fmhz / 47.7 := by rw [← hq, ← hs]
  obtain ⟨G, eG, hG⟩ := areaLoop_groups hi (by rw [← hq]; simp) hloop
  refine ⟨G.map Prod.snd, eG, fun L hL => ?_⟩
  obtain ⟨u, hu, rfl⟩ := List.mem_map.1 hL
  obtain ⟨d, -, A⟩ := forall₂_right hG hu
  obtain ⟨fs, hfs, F⟩ := A.rows
  have Zd := zip_deviates hzc
  have hrow : ∀ row ∈ u.2, row.distance_km = d ∧ ∃ zc a q', DeviateOf row.confidence zc ∧ avar zt zl zc u.1 = .ok (a, q') ∧ row.loss = fs + a := by
    intro row hr
    obtain ⟨c, hc', e1, e2, a, q', e3, e4⟩ := forall₂_right F hr
    obtain ⟨x, hx, e5, e6⟩ := forall₂_right Zd hc'
    exact ⟨e1, c.2, a, q', by rw [e2, e5]; exact e6, e3, e4⟩
  refine ⟨?_, d, fs, fun row hr => (hrow row hr).1, ?_, ?_⟩
  · have : ∀ {l : List (Int × ℝ)} {m : List (AreaRow ℝ)} {n : List Int}, List.Forall₂ (fun x y => y.1 = x ∧ DeviateOf x y.2) n l →
        List.Forall₂ (fun (c : Int × ℝ) (row : AreaRow ℝ) => row.distance_km = d ∧ row.confidence = c.1 ∧
          ∃ a q', avar zt zl c.2 u.1 = .ok (a, q') ∧ row.loss = fs + a) l m → m.map AreaRow.confidence = n := by
      intro l m n h1 h2
      induction h1 generalizing m with
      | nil => cases h2; rfl
      | cons e _ ih =>
        cases h2 with
        | cons f g => rw [List.map_cons, ih g, f.2.1, e.1]
    exact this Zd F
  · rw [← hfs, A.dist, A.wn, hw]
  · intro x hx y hy w hw e3 e4
    obtain ⟨-, z, a, _, d2, ha, el⟩ := hrow x hx
    obtain ⟨-, z', a', _, d2', ha', el'⟩ := hrow y hy
    obtain ⟨-, z'', a'', _, d2'', ha'', el''⟩ := hrow w hw
    rw [e4] at d2''
    exact balanced A.inv (A.mdvar.trans hmd) (by decide) e3 d2 d2' d2'' ha ha' ha'' el el' el''

/-- The mobile mode of `demo`: three answers, in the middle of each other. -/
example : ∃ a a' a'' q q' q'', avar 1 0 1.3 demo = .ok (a, q) ∧ avar 1 0 (-1.3) demo = .ok (a', q') ∧ avar 1 0 0 demo = .ok (a'', q'') ∧ 2 * a'' ≤ a + a' := by
  obtain ⟨a, q, h⟩ := demo_called 12 5 1 0 1.3
  obtain ⟨a', q', h'⟩ := demo_called 12 5 1 0 (-1.3)
  obtain ⟨a'', q'', h''⟩ := demo_called 12 5 1 0 0
  exact ⟨a, a', a'', q, q', q'', h, h', h'', (C84_quantile (p₀ := demo) (m := 2) rfl .refl
    (.inl ⟨by simp only [demo]; decide, 12, true, false, rfl, by decide, by decide, rfl⟩) (.inr (.inl rfl)) h h' h'').1⟩

/-- The shipped levels hold complementary ones. -/
example : (10 : Int) ∈ p2pQc ∧ (50 : Int) ∈ p2pQc ∧ (90 : Int) ∈ p2pQc := by decide

end Itm.Props

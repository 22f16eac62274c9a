import Verif.Lemmas.PathSym
import Verif.Lemmas.Recip
import Verif.Props.C59

/-! The point-to-point runner on paths with equal or exchanged parameters. -/

namespace Itm
open Spec Props

/-- The path of a profile. -/
def pflPath (pfl : Pfl ℝ) (hg : Pair ℝ) (gme : ℝ) (n : ℕ) : Path :=
  { n := n, ξ := pfl.xi, κ := gme, hg₀ := hg.x0, hg₁ := hg.x1, z := fun j => pfl.z.getD j 0 }

/-- Path parameters as a specification object. -/
def Geom.geometry (g : Geom ℝ) : Geometry :=
  { he₀ := g.he.x0, he₁ := g.he.x1, dl₀ := g.dl.x0, dl₁ := g.dl.x1, the₀ := g.the.x0, the₁ := g.the.x1, dh := g.dh }

theorem geomC_path {pfl : Pfl ℝ} {hg : Pair ℝ} {gme : ℝ} {n : ℕ} (hn : 1 ≤ n) (hnp : pfl.np = n) (hx : 0 < pfl.xi) (hl : n < pfl.z.length)
    (hg0 : 0 < hg.x0) (hg1 : 0 < hg.x1) (hκ : 0 < gme) :
    ∃ g, geomC pfl hg gme = .ok g ∧ g.dist = n * pfl.xi ∧ 0 < g.he.x0 ∧ 0 < g.he.x1 ∧
      (pflPath pfl hg gme n).IsGeometry (pfl.z.getD (n - 1) 0) g.geometry := by
  obtain ⟨s, hs⟩ : ∃ s : PropSt ℝ, s = { blank 0 { hg := hg, he := hg, dl := hg, the := hg, wn := gme, dh := gme, ens := gme, gme := gme, zgnd := ⟨gme, gme⟩ } with pfl := pfl } := ⟨_, rfl⟩
  have e1 : s.pfl = pfl := by rw [hs]
  have e2 : s.hg = hg := by rw [hs]; rfl
  have e3 : s.gme = gme := by rw [hs]; rfl
  obtain ⟨q, hq, h0, h1, -, -, -, hd, -⟩ := C39_total (p := s) (n := n) hn (by rw [e1]; exact hnp) (by rw [e1]; exact hx) (by rw [e1]; exact hl)
    (by rw [e2]; exact hg0) (by rw [e2]; exact hg1) (by rw [e3]; exact hκ)
  have hG := C58_clear_shifted (p := s) (n := n) hn (by rw [e1]; exact hnp) (by rw [e1]; exact hx) (by rw [e1]; exact hl)
    (by rw [e2]; exact hg0) (by rw [e2]; exact hg1) (by rw [e3]; exact hκ) hq
  rw [e2] at h0 h1
  rw [e1] at hd hG
  refine ⟨⟨q.dist, q.dh, q.he, q.dl, q.the⟩, ?_, hd, by linarith, by linarith, ?_⟩
  · unfold geomC
    rw [← hs, hq, ok_bind, pure_ok]
  · have : pathOf s n = pflPath pfl hg gme n := by unfold pathOf pflPath; rw [e1, e2, e3]
    rw [this] at hG
    exact hG

theorem geom_ext {g g' : Geom ℝ} (hd : g.dist = g'.dist) (h : g.geometry = g'.geometry) : g = g' := by
  obtain ⟨d, dh, ⟨a, b⟩, ⟨c, e⟩, ⟨f, k⟩⟩ := g
  obtain ⟨d', dh', ⟨a', b'⟩, ⟨c', e'⟩, ⟨f', k'⟩⟩ := g'
  simp only [Geom.geometry, Geometry.mk.injEq] at h
  obtain ⟨rfl, rfl, rfl, rfl, rfl, rfl, rfl⟩ := h
  obtain rfl : d = d' := hd
  rfl

/-- The receiver's height matters on clear paths only. -/
theorem isGeometry_zr {P : Path} {zr zr' : ℝ} {G : Geometry} (hz : P.Clear → zr = zr') (h : P.IsGeometry zr G) : P.IsGeometry zr' G := by
  by_cases hc : P.Clear
  · rwa [← hz hc]
  · obtain ⟨θ₀, θ₁, d₀, d₁, x, y, a1, a2, a3, a4, -, a6⟩ := h
    exact ⟨θ₀, θ₁, d₀, d₁, x, y, a1, a2, a3, a4, fun h => absurd h hc, a6⟩

/-! ### Raising the profile -/

theorem getD_shift {z : List ℝ} {c : ℝ} {j : ℕ} (h : j < z.length) : (z.map (· + c)).getD j 0 = z.getD j 0 + c := by
  rw [List.getD_eq_getElem?_getD, List.getD_eq_getElem?_getD, List.getElem?_map, List.getElem?_eq_getElem h]
  rfl

theorem geomC_shift {pfl : Pfl ℝ} {hg : Pair ℝ} {gme : ℝ} {n : ℕ} (c : ℝ) (hn : 1 ≤ n) (hnp : pfl.np = n) (hx : 0 < pfl.xi) (hl : n < pfl.z.length)
    (hg0 : 0 < hg.x0) (hg1 : 0 < hg.x1) (hκ : 0 < gme) :
    geomC { pfl with z := pfl.z.map (· + c) } hg gme = geomC pfl hg gme := by
  obtain ⟨g, e, hd, -, -, hG⟩ := geomC_path hn hnp hx hl hg0 hg1 hκ
  obtain ⟨g', e', hd', -, -, hG'⟩ := geomC_path (pfl := { pfl with z := pfl.z.map (· + c) }) hn hnp hx (by dsimp only; rwa [List.length_map]) hg0 hg1 hκ
  rw [e, e']
  congr 1
  have s := isGeometry_shift c hG
  have s' := isGeometry_congr (P' := pflPath { pfl with z := pfl.z.map (· + c) } hg gme n) (P := (pflPath pfl hg gme n).shift c) hn hx hg0 hg1
    rfl rfl rfl rfl rfl (fun j hj => (getD_shift (lt_of_le_of_lt hj hl)).symm) s
  have e0 : ({ pfl with z := pfl.z.map (· + c) } : Pfl ℝ).z.getD (n - 1) 0 = pfl.z.getD (n - 1) 0 + c := getD_shift (by omega)
  rw [e0] at hG'
  exact geom_ext (by rw [hd, hd']) (C58_determined hn hx s' hG')

/-! ### Reversing the profile -/

def Geom.swap (g : Geom ℝ) : Geom ℝ := { g with he := g.he.swap, dl := g.dl.swap, the := g.the.swap }

theorem getD_reverse {z : List ℝ} {n j : ℕ} (hl : z.length = n + 1) (h : j ≤ n) : z.reverse.getD j 0 = z.getD (n - j) 0 := by
  rw [List.getD_eq_getElem?_getD, List.getD_eq_getElem?_getD, List.getElem?_reverse (by omega)]
  congr 2
  omega

theorem geomC_rev {pfl : Pfl ℝ} {hg : Pair ℝ} {gme : ℝ} {n : ℕ} (hn : 1 ≤ n) (hnp : pfl.np = n) (hx : 0 < pfl.xi) (hl : pfl.z.length = n + 1)
    (hg0 : 0 < hg.x0) (hg1 : 0 < hg.x1) (hκ : 0 < gme) {P : Path} (hP : P = pflPath pfl hg gme n)
    (hcase : (¬ P.Clear ∧ P.SharpHorizons) ∨ (P.Clear ∧ P.z P.n = P.z (P.n - 1) ∧ P.z 0 = P.z 1)) :
    ∃ g, geomC pfl hg gme = .ok g ∧ 0 < g.he.x0 ∧ 0 < g.he.x1 ∧ geomC { pfl with z := pfl.z.reverse } hg.swap gme = .ok g.swap := by
  obtain ⟨g, e, hd, p0, p1, hG⟩ := geomC_path hn hnp hx (by omega) hg0 hg1 hκ
  obtain ⟨g', e', hd', -, -, hG'⟩ := geomC_path (pfl := { pfl with z := pfl.z.reverse }) (hg := hg.swap) hn hnp hx (by dsimp only; rw [List.length_reverse]; omega) hg1 hg0 hκ
  refine ⟨g, e, p0, p1, ?_⟩
  rw [e']
  congr 1
  have en : P.n = n := by rw [hP]; rfl
  rw [← hP] at hG
  have s := isGeometry_rev (P := P) (by rw [en]; exact hn) (by rw [hP]; exact hx) (by rw [hP]; exact hg0) (by rw [hP]; exact hg1)
    (by rcases hcase with h | h; exacts [.inr h.2, .inl h.1])
    (fun hc => by
      rcases hcase with h | h
      · exact absurd hc h.1
      · rw [h.2.1, en, hP]; rfl) hG
  have s' := isGeometry_congr (P := pflPath { pfl with z := pfl.z.reverse } hg.swap gme n) (P' := P.rev) hn hx hg1 hg0 (by rw [hP]; rfl) (by rw [hP]; rfl)
    (by rw [hP]; rfl) (by rw [hP]; rfl) (by rw [hP]; rfl) (fun j hj => by rw [hP]; exact getD_reverse hl hj) hG'
  have e0 : ({ pfl with z := pfl.z.reverse } : Pfl ℝ).z.getD (n - 1) 0 = P.z 1 := by
    rw [hP]
    have : pfl.z.reverse.getD (n - 1) 0 = pfl.z.getD (n - (n - 1)) 0 := getD_reverse hl (by omega)
    rw [show n - (n - 1) = 1 by omega] at this
    exact this
  rw [e0] at s'
  have s'' : P.rev.IsGeometry (P.z 0) g'.geometry := by
    refine isGeometry_zr (fun hc => ?_) s'
    have hcl : P.Clear := by
      by_contra hcon
      -- reversing twice
      have h2 := clear_rev hc
      refine hcon fun j j1 j2 => ?_
      have := h2 j j1 j2
      rw [rev_rev_z P j2.le, rev_rev_z P (Nat.zero_le _)] at this
      have e : P.rev.rev.z P.rev.rev.n = P.z P.n := rev_rev_z P le_rfl
      rw [e] at this
      exact this
    rcases hcase with h | h
    · exact absurd hcl h.1
    · exact h.2.2.symm
  have := C58_determined (by show 1 ≤ P.n; rw [en]; exact hn) (by show 0 < P.ξ; rw [hP]; exact hx) s s''
  refine geom_ext ?_ ?_
  · rw [hd']; show _ = g.dist; rw [hd]
  · rw [this]; rfl

/-! ### The model on exchanged dictionaries -/

theorem lrprop_exchange {p q : PropSt ℝ} {d : ℝ} (hm : p.mdp ≠ 0) (h0 : 0 < p.he.x0) (h1 : 0 < p.he.x1) (h : lrprop d p = .ok q) :
    ∃ q' hz, lrprop d (exchange p) = .ok q' ∧ q'.aref = q.aref ∧ q'.scat = q.scat ∧ q'.dist = q.dist ∧ q.hor = some hz ∧ q'.hor = some (swapH hz) := by
  rw [lrprop_setup hm] at h
  obtain ⟨s, hs, h⟩ := bind_eq_ok.1 h
  obtain ⟨c, hc, h⟩ := bind_eq_ok.1 h
  obtain ⟨s', hc'⟩ := runC_swap (i := inp p) h0.ne' h1.ne' rfl hc
  rw [pure_ok, ok_inj] at h
  rw [lrprop_setup (p := exchange p) hm, show setupC (exchange p).mdp (inp (exchange p)) = _ from setupC_swap hs, ok_bind]
  simp only
  rw [show runC (inp (exchange p)) (swapH s.h) s.l (distOf (exchange p) d) { cacheOf (exchange p) with wlos := false, wscat := false, ascat1 := 0.0 } = _ from hc',
    ok_bind, pure_ok]
  refine ⟨_, s.h, rfl, ?_⟩
  rw [← h]
  exact ⟨rfl, rfl, rfl, rfl, rfl⟩

theorem dexaOf_swap (he : Pair ℝ) (wn : ℝ) : dexaOf he.swap wn = dexaOf he wn := by
  unfold dexaOf Pair.swap
  dsimp only
  by_cases h0 : 0 ≤ 18e6 * he.x0
  · by_cases h1 : 0 ≤ 18e6 * he.x1
    · rw [mathSqrt_ok h0, mathSqrt_ok h1]
      simp only [ok_bind]
      refine congrArg₂ bind rfl (funext fun u => ?_)
      refine congrArg₂ bind rfl (funext fun v => ?_)
      rw [add_comm (Real.sqrt _) (Real.sqrt _)]
    · rw [mathSqrt_ok h0]
      unfold mathSqrt
      rw [if_pos (by rw [zero_lit]; exact not_le.1 h1), ok_bind]
      rfl
  · by_cases h1 : 0 ≤ 18e6 * he.x1
    · rw [mathSqrt_ok h1]
      unfold mathSqrt
      rw [if_pos (by rw [zero_lit]; exact not_le.1 h0), ok_bind]
      rfl
    · unfold mathSqrt
      rw [if_pos (by rw [zero_lit]; exact not_le.1 h1), if_pos (by rw [zero_lit]; exact not_le.1 h0)]

/-- Two dictionaries with the same answers. -/
structure SameAns (p q : PropSt ℝ) : Prop where
  left : CacheInv p
  right : CacheInv q
  ans : ∀ zt zl zc, freshAns zt zl zc p = freshAns zt zl zc q
  d : p.d = q.d

theorem avar_same {p q p' : PropSt ℝ} {zt zl zc a : ℝ} (h : SameAns p q) (hp : avar zt zl zc p = .ok (a, p')) :
    ∃ q', avar zt zl zc q = .ok (a, q') ∧ SameAns p' q' := by
  obtain ⟨i1, k1, f1, -⟩ := avar_key h.left hp
  have ha := avar_ans h.left hp
  rw [h.ans] at ha
  obtain ⟨q', hq⟩ := ans_avar h.right ha
  obtain ⟨i2, k2, f2, -⟩ := avar_key h.right hq
  refine ⟨q', hq, i1, i2, fun zt zl zc => ?_, ?_⟩
  · rw [freshAns_congr k1, freshAns_congr k2, h.ans]
  · rw [f1.d, f2.d, h.d]

theorem p2pInner_same {fs : ℝ} {qr : Int} {zr : ℝ} {L : List (Int × ℝ)} {p q p' : PropSt ℝ} {rows : List (P2PRow ℝ)} (h : SameAns p q)
    (hp : p2pInner fs qr zr L p = .ok (rows, p')) : ∃ q', p2pInner fs qr zr L q = .ok (rows, q') ∧ SameAns p' q' := by
  induction L generalizing p q rows with
  | nil =>
    unfold p2pInner at hp ⊢
    rw [pure_ok, ok_inj] at hp
    obtain ⟨rfl, rfl⟩ := Prod.mk.inj hp
    exact ⟨q, rfl, h⟩
  | cons c L ih =>
    obtain ⟨qc, zc⟩ := c
    unfold p2pInner at hp ⊢
    obtain ⟨⟨a, p1⟩, h1, hp⟩ := bind_eq_ok.1 hp
    obtain ⟨⟨rest, p2⟩, h2, hp⟩ := bind_eq_ok.1 hp
    dsimp only at hp h1 h2
    rw [pure_ok, ok_inj] at hp
    obtain ⟨rfl, rfl⟩ := Prod.mk.inj hp
    obtain ⟨q1, e1, s1⟩ := avar_same h h1
    obtain ⟨q2, e2, s2⟩ := ih s1 h2
    refine ⟨q2, ?_, s2⟩
    rw [e1, ok_bind]
    dsimp only
    rw [e2, ok_bind, s1.d]
    rfl

theorem p2pRows_same {fs : ℝ} {zc L : List (Int × ℝ)} {p q p' : PropSt ℝ} {rows : List (P2PRow ℝ)} (h : SameAns p q)
    (hp : p2pRows fs zc L p = .ok (rows, p')) : ∃ q', p2pRows fs zc L q = .ok (rows, q') ∧ SameAns p' q' := by
  induction L generalizing p q rows with
  | nil =>
    unfold p2pRows at hp ⊢
    rw [pure_ok, ok_inj] at hp
    obtain ⟨rfl, rfl⟩ := Prod.mk.inj hp
    exact ⟨q, rfl, h⟩
  | cons c L ih =>
    obtain ⟨qr, zr⟩ := c
    unfold p2pRows at hp ⊢
    obtain ⟨⟨a, p1⟩, h1, hp⟩ := bind_eq_ok.1 hp
    obtain ⟨⟨rest, p2⟩, h2, hp⟩ := bind_eq_ok.1 hp
    dsimp only at hp h1 h2
    rw [pure_ok, ok_inj] at hp
    obtain ⟨rfl, rfl⟩ := Prod.mk.inj hp
    obtain ⟨q1, e1, s1⟩ := p2pInner_same h h1
    obtain ⟨q2, e2, s2⟩ := ih s1 h2
    refine ⟨q2, ?_, s2⟩
    rw [e1, ok_bind]
    dsimp only
    rw [e2, ok_bind]
    rfl

theorem freshAns_exchanged {p q : PropSt ℝ} (h1 : q.klim = p.klim) (h2 : q.mdvar = p.mdvar) (h3 : q.wn = p.wn) (h4 : q.he = p.he.swap)
    (h5 : q.dist = p.dist) (h6 : q.dh = p.dh) (h7 : q.aref = p.aref) (zt zl zc : ℝ) : freshAns zt zl zc p = freshAns zt zl zc q := by
  unfold freshAns
  rw [h1, h2, h3, h4, h5, h6, h7, dexaOf_swap]

end Itm

import Verif.Model.Scripts
import Verif.Spec.Terrain
import Verif.Props.C42
import Verif.Props.C49

/-! C61: the terrain profile of a point-to-point path, from the two sites to the positions the model is given. -/

namespace Itm.Props
open Itm Itm.Spec

theorem mapM_eq_ok {β γ : Type} {f : β → Py γ} {l : List β} {r : List γ} : l.mapM f = .ok r ↔ List.Forall₂ (fun x y => f x = .ok y) l r := by
  induction l generalizing r with
  | nil =>
    rw [List.mapM_nil, pure_ok, ok_inj, List.forall₂_nil_left_iff]
    exact eq_comm
  | cons x xs ih =>
    rw [List.mapM_cons, bind_eq_ok, List.forall₂_cons_left_iff]
    constructor
    · rintro ⟨y, hy, h⟩
      obtain ⟨ys, hys, h⟩ := bind_eq_ok.1 h
      rw [pure_ok, ok_inj] at h
      exact ⟨y, ys, hy, ih.1 hys, h.symm⟩
    · rintro ⟨y, ys, hy, hys, rfl⟩
      exact ⟨y, hy, bind_eq_ok.2 ⟨ys, ih.2 hys, rfl⟩⟩

theorem pyFloat_ok {β : Type} {x : Option β} {z : β} : pyFloat x = .ok z ↔ x = some z := by
  cases x <;> simp [pyFloat]

/-- The sample points of the line. -/
theorem geoms_eq {n : ℕ} (hn : 0 < n) (a b : ℝ × ℝ) {len : ℝ} (hl : 0 < len) :
    (samplePositions n len).map (lineInterpolate a b len) = (List.range n).map fun k : ℕ => between a b (k / n) := by
  unfold samplePositions
  rw [List.map_map]
  refine List.map_congr_left fun k _ => ?_
  have hn' : (n : ℝ) ≠ 0 := by positivity
  show lineInterpolate a b len (len / PyNum.ofInt (n : Int) * PyNum.ofInt (k : Int)) = _
  rw [rofInt, rofInt, Int.cast_natCast, Int.cast_natCast]
  unfold lineInterpolate between
  rw [zero_lit, if_neg (by rw [pyEq_real]; exact hl.ne'), show len / (n : ℝ) * k / len = k / n by field_simp]

/-- **C61** `terrain_p2p` succeeds exactly if the elevation model covers all sample points; the profile is then the elevations at the
fractions `0, 1/n, …, (n-1)/n` of the straight line between the sites, `n` between 2 and 600, and the points returned are those of the
profile. -/
theorem C61_samples {elev : ℝ × ℝ → Option ℝ} {a b : ℝ × ℝ} {D len : ℝ} (hD : 0 ≤ D) (hl : 0 < len) :
    ∃ n : ℕ, 2 ≤ n ∧ n ≤ 600 ∧ determineNumSamples D = .ok (n : ℤ) ∧
      ((∃ x, terrainP2P elev a b D len = .ok x) ↔ ∀ k < n, (elev (between a b (k / n))).isSome) ∧
      ∀ {profile km pts}, terrainP2P elev a b D len = .ok (profile, km, pts) →
        km = D / 1000 ∧ profile.length = n ∧ pts.map Prod.snd = profile ∧ pts.map Prod.fst = (List.range n).map (fun k : ℕ => between a b (k / n)) ∧
        ∀ k < n, elev (between a b (k / n)) = some (profile.getD k 0) := by
  obtain ⟨m, hm, h2, h6⟩ := C49_range hD
  obtain ⟨n, rfl⟩ : ∃ n : ℕ, m = n := ⟨m.toNat, by omega⟩
  have hn : 0 < n := by omega
  have key : terrainP2P elev a b D len = ((List.range n).map (fun k : ℕ => between a b (k / n))).mapM (fun g => pyFloat (elev g)) >>= fun profile =>
      .ok (profile, D / 1000.0, ((List.range n).map (fun k : ℕ => between a b (k / n))).zip profile) := by
    unfold terrainP2P
    rw [hm, ok_bind]
    dsimp only
    rw [Int.toNat_natCast, geoms_eq hn a b hl]
    rfl
  refine ⟨n, by omega, by omega, hm, ⟨?_, ?_⟩, ?_⟩
  · rintro ⟨x, hx⟩ k hk
    rw [key] at hx
    obtain ⟨pr, hpr, _⟩ := bind_eq_ok.1 hx
    rw [mapM_eq_ok, List.forall₂_map_left_iff] at hpr
    have h1 : k < (List.range n).length := by simpa using hk
    have h2 : k < pr.length := by rw [← hpr.length_eq]; exact h1
    have hz := (List.forall₂_iff_get.1 hpr).2 k h1 h2
    rw [pyFloat_ok] at hz
    simp only [List.get_eq_getElem, List.getElem_range] at hz
    rw [hz]; rfl
  · intro h
    have : List.Forall₂ (fun (g : ℝ × ℝ) y => pyFloat (elev g) = .ok y) ((List.range n).map (fun k : ℕ => between a b (k / n)))
        ((List.range n).map (fun k : ℕ => (elev (between a b (k / n))).getD 0)) := by
      rw [List.forall₂_map_left_iff, List.forall₂_map_right_iff, List.forall₂_same]
      intro k hk
      obtain ⟨z, hz⟩ := Option.isSome_iff_exists.1 (h k (by simpa using hk))
      rw [hz]; rfl
    rw [key]
    exact ⟨_, by rw [mapM_eq_ok.2 this, ok_bind]⟩
  · intro profile km pts hx
    rw [key] at hx
    obtain ⟨pr, hpr, hx⟩ := bind_eq_ok.1 hx
    rw [ok_inj] at hx
    simp only [Prod.mk.injEq] at hx
    obtain ⟨rfl, rfl, rfl⟩ := hx
    rw [mapM_eq_ok] at hpr
    have hlen := hpr.length_eq
    rw [List.length_map, List.length_range] at hlen
    refine ⟨by norm_num, hlen.symm, ?_, ?_, ?_⟩
    · rw [List.map_snd_zip]; simp [hlen]
    · rw [List.map_fst_zip]; simp [hlen]
    · intro k hk
      rw [List.forall₂_map_left_iff] at hpr
      have h1 : k < (List.range n).length := by simpa using hk
      have h2 : k < pr.length := by omega
      have := (List.forall₂_iff_get.1 hpr).2 k h1 h2
      rw [pyFloat_ok] at this
      simp only [List.get_eq_getElem, List.getElem_range] at this
      rw [this, List.getD_eq_getElem?_getD, List.getElem?_eq_getElem h2]; rfl

/-- **C61** (refuted) The runner puts the samples in the wrong places. Handed the profile and the distance `terrain_p2p` returned, it takes
sample `k` to lie at `k / (n-1)` of the path, while it was measured at `k / n`: sample `k` is moved towards the receiver by `k / (n (n-1))`
of the path. The last one, measured a full `1 / n` of the path before the receiver, is taken for the receiver's ground. -/
theorem C61_refuted {elev : ℝ × ℝ → Option ℝ} {a b : ℝ × ℝ} {D len km : ℝ} {profile : List ℝ} {pts : List ((ℝ × ℝ) × ℝ)} {p s : PropSt ℝ}
    (hD : 0 < D) (hl : 0 < len) (hd : p.d = km) (ht : terrainP2P elev a b D len = .ok (profile, km, pts)) (hs : p2pSetup p profile = .ok s) :
    ∃ n : ℕ, 2 ≤ n ∧ profile.length = n ∧ s.pfl.z = profile ∧ s.pfl.np = n - 1 ∧ s.pfl.np * s.pfl.xi = D ∧
      ∀ k < n, elev (between a b (k / n)) = some (s.pfl.z.getD k 0) ∧
        k * s.pfl.xi - k / n * D = k / (n * (n - 1)) * D := by
  obtain ⟨n, h2, _, _, _, h⟩ := C61_samples (elev := elev) (a := a) (b := b) hD.le hl
  obtain ⟨hkm, hlen, _, _, hz⟩ := h ht
  obtain ⟨xi, zg, hx, rfl⟩ := p2pSetup_ok hs
  dsimp only
  unfold p2pSys at hx
  dsimp only at hx
  have hn1 : (1 : ℝ) < n := by exact_mod_cast h2
  rw [hd, hkm, zero_lit, if_neg (by push Not; positivity), hlen] at hx
  obtain ⟨xi', h1, hx⟩ := bind_eq_ok.1 hx
  obtain ⟨zq, _, hx⟩ := bind_eq_ok.1 hx
  have e : xi = xi' := by
    by_cases hi : p.ipol ≠ 0
    · rw [if_pos hi] at hx
      obtain ⟨w, _, hx⟩ := bind_eq_ok.1 hx
      rw [pure_ok, ok_inj, Prod.mk.injEq] at hx
      exact hx.1.symm
    · rw [if_neg hi] at hx
      obtain ⟨w, _, hx⟩ := bind_eq_ok.1 hx
      rw [pure_ok, ok_inj, Prod.mk.injEq] at hx
      exact hx.1.symm
  obtain ⟨_, rfl⟩ := pyDiv_eq_ok.1 h1
  subst e
  rw [rofInt]
  have hn0 : (n : ℝ) - 1 ≠ 0 := by linarith
  have hn2 : (n : ℝ) ≠ 0 := by linarith
  refine ⟨n, h2, hlen, rfl, by rw [hlen], ?_, fun k hk => ⟨hz k hk, ?_⟩⟩
  · rw [hlen]; push_cast; norm_num; field_simp
  · push_cast; norm_num; field_simp; ring

/-- A hill between two sites. -/
example : ∃ profile km pts, terrainP2P (fun g => some (g.1 * (1 - g.1))) ((0 : ℝ), (0 : ℝ)) (1, 0) 0 1 = .ok (profile, km, pts) ∧
    profile = [0, 1 / 4] ∧ pts = [((0, 0), 0), ((1 / 2, 0), 1 / 4)] := by
  obtain ⟨n, h2, h6, hn, hs, h⟩ := C61_samples (elev := fun g => some (g.1 * (1 - g.1))) (a := (0, 0)) (b := (1, 0)) (D := 0) (len := 1) le_rfl one_pos
  rw [C49_zero, ok_inj] at hn
  obtain rfl : n = 2 := by exact_mod_cast hn.symm
  obtain ⟨⟨profile, km, pts⟩, hx⟩ := hs.2 (by simp)
  obtain ⟨-, hl, h3, h4, h5⟩ := h hx
  have e0 := h5 0 (by norm_num)
  have e1 := h5 1 (by norm_num)
  have ep : profile = [0, 1 / 4] := by
    match profile, hl with
    | [u, v], _ =>
      norm_num [between] at e0 e1
      rw [← e0, ← e1]
  refine ⟨profile, km, pts, hx, ep, ?_⟩
  have : pts = (pts.map Prod.fst).zip (pts.map Prod.snd) := by
    rw [List.zip_map']; simp
  rw [this, h3, h4, ep]
  norm_num [List.range_succ, between]

theorem p2pSetup_total {p : PropSt ℝ} {profile : List ℝ} (hf : 0 < p.fmhz) (hi : p.ipol = 0) (hl : 2 ≤ profile.length) :
    ∃ s, p2pSetup p profile = .ok s := by
  rw [p2pSetup_eq]
  unfold p2pSys groundZq
  dsimp only
  have hn : (PyNum.ofInt ((profile.length : ℤ) - 1) : ℝ) ≠ 0 := by
    rw [rofInt]
    have : (1 : ℝ) < profile.length := by exact_mod_cast hl
    push_cast; linarith
  have hw : p.fmhz / 47.7 ≠ 0 := by positivity
  rw [pyDiv_ok hn, ok_bind, bind_assoc, pyDiv_ok hw, ok_bind, pure_bind, if_neg (by rw [hi]; simp), pure_bind, pure_bind]
  exact ⟨_, rfl⟩

/-- A path of 1 km over that hill: the hypotheses of `C61_refuted` are met. -/
example : ∃ profile km pts s, terrainP2P (fun g => some (g.1 * (1 - g.1))) ((0 : ℝ), (0 : ℝ)) (1, 0) 1000 1 = .ok (profile, km, pts) ∧
    p2pSetup { levelLink with d := km } profile = .ok s := by
  obtain ⟨n, h2, h6, hn, hs, h⟩ := C61_samples (elev := fun g => some (g.1 * (1 - g.1))) (a := (0, 0)) (b := (1, 0)) (D := 1000) (len := 1)
    (by norm_num) one_pos
  obtain ⟨⟨profile, km, pts⟩, hx⟩ := hs.2 (by simp)
  obtain ⟨-, hl, -⟩ := h hx
  obtain ⟨s, hs⟩ := p2pSetup_total (p := { levelLink with d := km }) (profile := profile) (by norm_num [levelLink]) rfl (by omega)
  exact ⟨profile, km, pts, s, hx, hs⟩

end Itm.Props

import Verif.Props.C06
import Verif.Props.C67

/-! C69: campaign runs are answered, all heights or none. -/

namespace Itm.Props
open Itm Itm.Spec

/-- The dictionary with which one antenna height of the campaign is prepared. -/
def heightTurn (s : PropSt ℝ) (h : ℝ) : PropSt ℝ := { s with hg := ⟨s.hg.x0, h⟩, lvar := 5, kwx := 0, klimx := 0, mdvarx := 11 }

/-- One height: prepared, and answered or divides by zero as the prepared path tells. -/
theorem height_turn {s : PropSt ℝ} {n : ℕ} {h : ℝ} (hn1 : 1 ≤ n) (snp : s.pfl.np = n) (sx : 0 < s.pfl.xi) (sl : n < s.pfl.z.length)
    (h0 : s.hg.x0 = 2.56) (hh : 10 ≤ h ∧ h ≤ 130) (sw : s.wn = 2.488 * 1000.0 / 47.7) (sn : s.ens = 314.0)
    (sg : s.gme = effCurvature 157e-9 314.0) (z1 : |s.zgnd.im| ≤ s.zgnd.re) (z2 : s.zgnd.im ≠ 0 ∨ 1 ≤ s.zgnd.re)
    (z3 : 0.025 ≤ √(s.zgnd.re ^ 2 + s.zgnd.im ^ 2)) {k : ℤ} (hk : s.klim.map fixKlim = some k) :
    ∃ q, qlrpflPrep (heightTurn s h) = .ok q ∧ q.dist = n * s.pfl.xi ∧
      (PathOk q → (q.dist < (linkOf q).dlsa ∨ 0 < (linkOf q).scatterAngle (linkOf q).d5) →
        ((linkOf q).NoClash q.dist → ∀ qr zr zc, ∃ row r, pimterTurn qr zr zc h s = .ok (row, r)) ∧
        (¬ (linkOf q).NoClash q.dist → ∀ qr zr zc, pimterTurn qr zr zc h s = .error .zeroDivision)) := by
  obtain ⟨t, et⟩ : ∃ t, t = heightTurn s h := ⟨_, rfl⟩
  obtain ⟨κ, eκ⟩ : ∃ κ : ℝ, κ = effCurvature 157e-9 314.0 := ⟨_, rfl⟩
  obtain ⟨hκ1, hκ2⟩ := curvature_range (n := 314.0) (by norm_num) (by norm_num)
  rw [← eκ] at hκ1 hκ2
  have hκ : 0 < κ := lt_of_lt_of_le (by norm_num) hκ1
  have tp : t.pfl = s.pfl := by rw [et]; rfl
  have tg : t.gme = κ := by rw [et, eκ, ← sg]; rfl
  have t0 : t.hg.x0 = 2.56 := by rw [et]; exact h0
  have t1 : t.hg.x1 = h := by rw [et]; rfl
  have p0 : 0 < t.hg.x0 := by rw [t0]; norm_num
  have p1 : 0 < t.hg.x1 := by rw [t1]; linarith [hh.1]
  obtain ⟨q, hq, c0, c1, c2, c3, c4, c5, c6, -⟩ := C39_total (p := t) hn1 (by rw [tp]; exact snp) (by rw [tp]; exact sx)
    (by rw [tp]; exact sl) p0 p1 (by rw [tg]; exact hκ)
  rw [tp] at c5
  have fr : q.wn = t.wn ∧ q.gme = t.gme ∧ q.ens = t.ens ∧ q.zgnd = t.zgnd := by
    obtain ⟨_, _, _, _, _, rfl⟩ := qlrpflPrep_frame hq
    rw [prepMarks_eq]; exact ⟨rfl, rfl, rfl, rfl⟩
  obtain ⟨qw, qg, qn, qz⟩ := fr
  have qw : q.wn = 2.488 * 1000.0 / 47.7 := by rw [qw, et]; exact sw
  have qg : q.gme = κ := by rw [qg, tg]
  have qn : q.ens = 314.0 := by rw [qn, et]; exact sn
  have qz : q.zgnd = s.zgnd := by rw [qz, et]; rfl
  have hwp : 0 < q.wn := by rw [qw]; norm_num
  have hnn : (0:ℝ) < n := by exact_mod_cast hn1
  refine ⟨q, by rw [← et]; exact hq, c5, fun P hsc => ?_⟩
  have W : WithinLimits q := by
    refine ⟨by rw [qw]; norm_num, by rw [qn]; norm_num, by rw [qg]; norm_num at hκ1 hκ2 ⊢; constructor <;> linarith,
      by rw [qz]; exact z1, P.t0, P.t1, ⟨by linarith, P.he0⟩, ⟨by linarith, P.he1⟩, c4, ?_, ?_⟩
    · rw [qz]; exact z2
    · left; rw [qz]; exact z3
  have hm : q.mdp ≠ 0 := by omega
  have hdo : distOf q 0.0 = q.dist := by unfold distOf; rw [if_neg (by omega)]
  have hdp : 0 < q.dist := by rw [c5]; positivity
  have key : ((linkOf q).NoClash q.dist → ∃ r, lrprop 0.0 q = .ok r) ∧ (¬ (linkOf q).NoClash q.dist → lrprop 0.0 q = .error .zeroDivision) := by
    unfold Link.NoClash
    by_cases c : q.dist < (linkOf q).dlsa
    · rw [if_pos c, not_not]
      exact C65_sight hm W (by rw [hdo]; exact hdp) (by rw [hdo]; exact c)
    · rw [if_neg c, not_not]
      exact C65_beyond hm W (hsc.resolve_left c) (by rw [hdo]; exact not_lt.1 c)
  have hqp : ∀ {x}, lrprop 0.0 q = x → qlrpfl { s with hg := ⟨s.hg.x0, h⟩, lvar := 5, kwx := 0, klimx := 0, mdvarx := 11 } = x := by
    intro x hx
    change qlrpfl (heightTurn s h) = x
    unfold qlrpfl
    rw [← et, hq, ok_bind]; exact hx
  constructor
  · intro hr qr zr zc
    obtain ⟨r, hr⟩ := key.1 hr
    have hqq := hqp hr
    obtain ⟨hi, hmd, R⟩ := pimter_prep hqq
    have hdist := (lrprop_dist hr).1
    rw [if_neg (by omega)] at hdist
    have f : r.wn = q.wn ∧ r.he = q.he ∧ r.dh = q.dh := by
      obtain ⟨_, _, _, _, _, _, _, rfl⟩ := lrprop_frame hr
      exact ⟨rfl, rfl, rfl⟩
    obtain ⟨a, har, -⟩ := C18_aref_nonneg hr
    obtain ⟨fs, hfs⟩ := freeSpace_total (wn := r.wn) (dist := r.dist) (by rw [f.1]; exact hwp) (by rw [hdist]; exact hdp)
    obtain ⟨k', hk'⟩ : ∃ k', r.klim = some k' := by
      have := R.klim
      rw [hk] at this
      cases h : r.klim with
      | none => rw [h] at this; simp at this
      | some k => exact ⟨k, rfl⟩
    obtain ⟨a, u, hu⟩ := avar_total hi hk' hmd har (by rw [f.1]; exact hwp) (by rw [f.2.1]; linarith) (by rw [f.2.1]; linarith)
      (by rw [hdist]; exact hdp.le) (by rw [f.2.2]; exact c4) zr 0.0 zc
    unfold pimterTurn
    rw [hqq, ok_bind, hfs, ok_bind, hu, ok_bind]
    exact ⟨_, _, rfl⟩
  · intro hr qr zr zc
    unfold pimterTurn
    rw [hqp (key.2 hr)]
    rfl

theorem forall₂_left {β γ : Type} {R : β → γ → Prop} {X : List β} {Y : List γ} (h : List.Forall₂ R X Y) : ∀ x ∈ X, ∃ y ∈ Y, R x y := by
  induction h with
  | nil => simp
  | cons r _ ih =>
    intro x hx
    rcases List.mem_cons.1 hx with rfl | hx
    · exact ⟨_, by simp, r⟩
    · obtain ⟨y, hy, hr⟩ := ih x hx
      exact ⟨y, by simp [hy], hr⟩

/-- **C69** The campaign runner on any terrain with at least two distances, the first two increasing: the set-up and the preparation of
all 121 antenna heights succeed; if every prepared path is within the limits and has no coincidence the run answers 121 rows, and if
one of them has a coincidence the run answers nothing at all. -/
theorem C69_campaign {terrain distance tl : List ℝ} {d0 d1 : ℝ} (qr qc : Int) (surface : List ℝ) (p : PropSt ℝ)
    (hdis : distance = d0 :: d1 :: tl) (hx : d0 < d1) (hl : distance.length ≤ terrain.length) :
    ∃ s, pimterSetup p terrain distance = .ok s ∧
      (∀ i < 121, ∃ q, qlrpflPrep (heightTurn s (10 + (i : ℕ))) = .ok q ∧ q.dist = (tl.length + 1) * (d1 - d0)) ∧
      ((∀ i < 121, ∀ q, qlrpflPrep (heightTurn s (10 + (i : ℕ))) = .ok q →
          PathOk q ∧ (q.dist < (linkOf q).dlsa ∨ 0 < (linkOf q).scatterAngle (linkOf q).d5) ∧ (linkOf q).NoClash q.dist) →
        ∃ rows, runItmlogicPimterAt qr qc terrain surface distance p = .ok rows ∧ rows.length = 121) ∧
      ((∃ i < 121, ∃ q, qlrpflPrep (heightTurn s (10 + (i : ℕ))) = .ok q ∧
          PathOk q ∧ (q.dist < (linkOf q).dlsa ∨ 0 < (linkOf q).scatterAngle (linkOf q).d5) ∧ ¬ (linkOf q).NoClash q.dist) →
        ∀ rows, runItmlogicPimterAt qr qc terrain surface distance p ≠ .ok rows) := by
  obtain ⟨zt, hzt, lt⟩ := C04_qerfi_total [(PyNum.ofInt qr : ℝ)]
  obtain ⟨zl, hzl, ll⟩ := C04_qerfi_total [(PyNum.ofInt qc : ℝ)]
  have one : ∀ l : List ℝ, l.length = [(0:ℝ)].length → ∃ z, pyGet l 0 = .ok z := by
    intro l hl
    match l, hl with
    | [z], _ => exact ⟨z, rfl⟩
  obtain ⟨zt0, hzt0⟩ := one zt lt
  obtain ⟨zl0, hzl0⟩ := one zl ll
  obtain ⟨wn, ewn⟩ : ∃ wn : ℝ, wn = 2.488 * 1000.0 / 47.7 := ⟨_, rfl⟩
  have hw : (52:ℝ) ≤ wn ∧ wn ≤ 53 := by rw [ewn]; norm_num
  obtain ⟨x, ex⟩ : ∃ x : ℝ, x = 376.62 * 0.005 / wn := ⟨_, rfl⟩
  have hw0 : 0 < wn := by linarith [hw.1]
  have hx0 : 0 < x := by rw [ex]; positivity
  have hx1 : x ≤ 4.5 := by rw [ex, div_le_iff₀ hw0]; norm_num; linarith [hw.1]
  obtain ⟨z, ez, z1, z2, z3⟩ := ground_limits hx0 hx1 1
  rw [if_pos (by decide)] at ez
  have e2 : groundZq (15.0 : ℝ) 0.005 wn = .ok ⟨15.0, x⟩ := by
    unfold groundZq; rw [pyDiv_ok hw0.ne', ok_bind, ex]; rfl
  have e3 : (pimterGround : Py (Cx ℝ)) = .ok z := by
    unfold pimterGround
    rw [← ewn, e2, ok_bind]
    exact ez
  obtain ⟨dn, edn⟩ : ∃ dn, pyGet distance (-1) = .ok dn := by
    exact ⟨_, pyGet_neg (by decide) (by rw [hdis]; simp only [List.length_cons]; omega)⟩
  obtain ⟨s, hs, S1, S2, S3, S4, S5, S6, S7⟩ : ∃ s, pimterSetup p terrain distance = .ok s ∧
      s.pfl = { np := distance.length - 1, xi := d1 - d0, z := terrain } ∧ s.gme = effCurvature 157e-9 314.0 ∧ s.wn = 2.488 * 1000.0 / 47.7 ∧
      s.ens = 314.0 ∧ s.zgnd = z ∧ s.hg.x0 = 2.56 ∧ s.klim.map fixKlim = some 5 := by
    have g1 : pyGet distance 1 = .ok d1 := by rw [hdis]; rfl
    have g0 : pyGet distance 0 = .ok d0 := by rw [hdis]; rfl
    rw [pimterSetup_eq, g1, ok_bind, g0, ok_bind, edn, ok_bind, e3, ok_bind]
    exact ⟨_, rfl, rfl, rfl, rfl, rfl, rfl, rfl, rfl⟩
  have hlen : distance.length = (tl.length + 1) + 1 := by rw [hdis]; simp
  have turn : ∀ i < 121, _ := fun (i : ℕ) (hi : i < 121) => height_turn (s := s) (n := tl.length + 1) (h := 10 + (i : ℝ)) (by omega)
    (by rw [S1]; show (distance.length : ℤ) - 1 = _; rw [hlen]; push_cast; ring) (by rw [S1]; show 0 < d1 - d0; linarith)
    (by rw [S1]; show _ < terrain.length; omega) S6
    ⟨by have : (0:ℝ) ≤ i := by positivity
        linarith, by have : (i:ℝ) ≤ 120 := by exact_mod_cast (by omega : i ≤ 120)
                     linarith⟩ S3 S4 S2 (by rw [S5]; exact z1) (by rw [S5]; exact z2) (by rw [S5]; exact z3) S7
  have hcast : ∀ i : ℕ, (PyNum.ofInt (10 + (i : Int)) : ℝ) = 10 + (i : ℝ) := by intro i; rw [rofInt]; push_cast; ring
  refine ⟨s, hs, fun i hi => ?_, fun H => ?_, fun H rows hrun => ?_⟩
  · obtain ⟨q, hq, hd, -⟩ := turn i hi
    refine ⟨q, hq, ?_⟩
    rw [hd, S1]; push_cast; ring
  · obtain ⟨rows, hr⟩ := pimterLoop_total (qr := qr) (zr := zt0) (zc := zl0)
        (hs := (List.range 121).map fun (i : Nat) => (PyNum.ofInt (10 + (i : Int)) : ℝ)) (p := s) (by
      intro a ha p' R
      obtain ⟨i, hi, rfl⟩ := List.mem_map.1 ha
      rw [List.mem_range] at hi
      obtain ⟨q, hq, hd, ht⟩ := turn i hi
      obtain ⟨a1, a2, a3⟩ := H i hi q hq
      obtain ⟨row, r, hrow⟩ := (ht a1 a2).1 a3 qr zt0 zl0
      have rel := pimterTurn_rel ordered_real qr zt0 zl0 (PyNum.ofInt (10 + (i : Int)) : ℝ) R
      rw [hcast] at rel ⊢
      rw [hrow] at rel
      cases h3 : pimterTurn qr zt0 zl0 (10 + (i : ℝ)) p' with
      | error e => rw [h3] at rel; exact rel.elim
      | ok x => exact ⟨x.1, x.2, rfl⟩)
    have hrun : runItmlogicPimterAt qr qc terrain surface distance p = .ok rows := by
      unfold runItmlogicPimterAt
      rw [hzt, ok_bind, hzl, ok_bind, hs, ok_bind, hzt0, ok_bind, hzl0, ok_bind]
      exact hr
    refine ⟨rows, hrun, ?_⟩
    obtain ⟨_, _, _, _, _, _, hf⟩ := C52_rows ordered_real hrun
    rw [← hf.length_eq, List.length_range]
  · obtain ⟨i, hi, q, hq, a1, a2, a3⟩ := H
    obtain ⟨q', hq', hd, ht⟩ := turn i hi
    rw [hq, ok_inj] at hq'
    subst hq'
    have e := (ht a1 a2).2 a3 qr zt0 zl0
    unfold runItmlogicPimterAt at hrun
    rw [hzt, ok_bind, hzl, ok_bind, hs, ok_bind, hzt0, ok_bind, hzl0, ok_bind] at hrun
    have F := pimterLoop_ok ordered_real (PimterRel.refl s) hrun
    have hmem : (PyNum.ofInt (10 + (i : Int)) : ℝ) ∈ (List.range 121).map fun (i : Nat) => (PyNum.ofInt (10 + (i : Int)) : ℝ) :=
      List.mem_map.2 ⟨i, List.mem_range.2 hi, rfl⟩
    obtain ⟨row, -, u, hu⟩ := forall₂_left F _ hmem
    rw [hcast, e] at hu
    cases hu

/-- On a level profile of 200 km every height is within the limits and without coincidence, as the second part asks. -/
example : ∃ s : PropSt ℝ, pimterSetup smooth [7, 7] [0, 200000] = .ok s ∧ ∀ i < 121, ∀ q, qlrpflPrep (heightTurn s (10 + (i : ℕ))) = .ok q →
    PathOk q ∧ (q.dist < (linkOf q).dlsa ∨ 0 < (linkOf q).scatterAngle (linkOf q).d5) ∧ (linkOf q).NoClash q.dist := by
  obtain ⟨s, hs, -, T⟩ := pimter_level (D := 200000) (by norm_num) (by norm_num) 7 smooth
  refine ⟨s, hs, fun i hi q hq => ?_⟩
  have hi' : (i : ℝ) ≤ 120 := by exact_mod_cast (by omega : i ≤ 120)
  have hi0 : (0:ℝ) ≤ i := by positivity
  have h0 : s.hg.x0 = 2.56 := by
    rw [pimterSetup_eq] at hs
    obtain ⟨_, -, hs⟩ := bind_eq_ok.1 hs
    obtain ⟨_, -, hs⟩ := bind_eq_ok.1 hs
    obtain ⟨_, -, hs⟩ := bind_eq_ok.1 hs
    obtain ⟨_, -, hs⟩ := bind_eq_ok.1 hs
    rw [pure_ok, ok_inj] at hs
    rw [← hs]
  obtain ⟨q', hq', S, hm, hd, -⟩ := twoPoint_prep (T s (.refl s) (10 + i) (by linarith) (by linarith))
  have e : qlrpflPrep (heightTurn s (10 + (i : ℝ))) = .ok q' := hq'
  rw [hq, ok_inj] at e
  subst e
  have hg : q.hg = ⟨s.hg.x0, 10 + (i : ℝ)⟩ := by
    obtain ⟨_, _, _, _, _, rfl⟩ := qlrpflPrep_frame hq
    rw [prepMarks_eq]; rfl
  obtain ⟨P, h5⟩ := smooth_pathOk S (by rw [hg]; show _ ≤ s.hg.x0 ∧ s.hg.x0 ≤ _; rw [h0]; norm_num)
    (by rw [hg]; exact ⟨by norm_num; linarith, by show 10 + (i:ℝ) ≤ 3000; linarith⟩)
  refine ⟨P, .inr h5, ?_⟩
  by_contra c
  obtain ⟨rows, h⟩ := pimter_run (D := 200000) (by norm_num) (by norm_num) 7 [] smooth 50 50
  obtain ⟨s', hs', -, -, H⟩ := C69_campaign (terrain := [7, 7]) (distance := [0, 200000]) 50 50 [] smooth rfl (by norm_num) le_rfl
  rw [hs, ok_inj] at hs'
  subst hs'
  exact H ⟨i, hi, q, hq, P, .inr h5, c⟩ rows h

end Itm.Props

import Verif.Lemmas.RefineDlthx
import Verif.Lemmas.RefineHzns
import Verif.Props.C58

/-! `qlrpfl`: the parameters of a path in arithmetics of growing precision. -/

namespace Itm
open Itm.Spec Itm.Props Filter Asymptotics Topology

variable {ι : Type} {l : Filter ι} {α : ι → Type} [∀ i, PyNum (α i)] {ε : ι → ℝ} {F : Refining l α ε}

theorem refine_pflDl {E G H : ∀ i, α i} {he gme dh : ℝ} (h0 : F.Approx E he) (h1 : F.Approx G gme) (h2 : F.Approx H dh) (pe : he ≠ 0) (pd : dh ≠ 0) :
    Follows l F.Approx (fun i => pflDl (E i) (G i) (H i)) (pflDl he gme dh) := by
  unfold pflDl
  refine Follows.bind (Follows.div ((Refining.Approx.lit _ _ _).mul h0) h1) (fun A a ha hA => ?_)
  obtain ⟨hg, ea⟩ := pyDiv_eq_ok.1 ha
  have na : a ≠ 0 := by rw [ea]; exact div_ne_zero (mul_ne_zero (by norm_num) pe) hg
  refine Follows.bind (Follows.sqrt hA na) (fun Q q _ hQ => ?_)
  have pm : (0 : ℝ) < pyMax he 5.0 := by rw [pyMax_real]; exact lt_of_lt_of_le (by norm_num) (le_max_right _ _)
  refine Follows.bind (Follows.sqrt (h2.div (h0.pyMax (Refining.Approx.lit _ _ _)) pm.ne') (div_ne_zero pd pm.ne')) (fun S s _ hS => ?_)
  exact Follows.pure (hQ.mul (((Refining.Approx.lit (F := F) 7 true 2).neg.mul hS).exp))

theorem refine_pflThe {E L G H : ∀ i, α i} {he dl gme dh : ℝ} (h0 : F.Approx E he) (h3 : F.Approx L dl) (h1 : F.Approx G gme) (h2 : F.Approx H dh) (pe : he ≠ 0) :
    Follows l F.Approx (fun i => pflThe (E i) (L i) (G i) (H i)) (pflThe he dl gme dh) := by
  unfold pflThe
  refine Follows.bind (Follows.div ((Refining.Approx.lit _ _ _).mul h0) h1) (fun A a ha hA => ?_)
  obtain ⟨hg, ea⟩ := pyDiv_eq_ok.1 ha
  have na : a ≠ 0 := by rw [ea]; exact div_ne_zero (mul_ne_zero (by norm_num) pe) hg
  refine Follows.bind (Follows.sqrt hA na) (fun Q q _ hQ => ?_)
  refine Follows.bind (Follows.div hQ h3) (fun R r _ hR => ?_)
  exact Follows.div (((((Refining.Approx.lit _ _ _).mul h2)).mul (hR.sub (Refining.Approx.lit _ _ _))).sub ((Refining.Approx.lit _ _ _).mul h0)) hQ

/-- The parameters of the path have been replaced by approximations. -/
structure GeoApx (F : Refining l α ε) (P Q : ∀ i, PropSt (α i)) (q : PropSt ℝ) : Prop where
  he : TwoApx F (fun i => (Q i).he) q.he
  dl : TwoApx F (fun i => (Q i).dl) q.dl
  the : TwoApx F (fun i => (Q i).the) q.the
  rest : ∀ i, Q i = { P i with he := (Q i).he, dl := (Q i).dl, the := (Q i).the }

theorem Spec.PflApx.get_np {P : ∀ i, Pfl (α i)} {p : Pfl ℝ} (h : PflApx F P p) (k : Int) :
    Follows l F.Approx (fun i => (P i).get ((P i).np + k)) (p.get (p.np + k)) :=
  (h.get (p.np + k)).congr (by filter_upwards [h.np] with i e; rw [e])

theorem refine_raised {E H : ∀ i, α i} {hg g za : ℝ} {A : ∀ i, α i} (h : F.Approx H hg) (hE : F.Approx E g) (hA : F.Approx A za) :
    F.Approx (fun i => (H i + pyMax (E i - A i) 0.0 : α i)) (hg + pyMax (g - za) 0.0) := by
  have := h.add ((hE.sub hA).pyMax (Follows.zero (F := F)))
  rw [zero_lit]; exact this

/-- Heights, which are not 0, and distances. -/
def Four (F : Refining l α ε) (b : ∀ i, α i × α i × α i × α i) (y : ℝ × ℝ × ℝ × ℝ) : Prop :=
  F.Approx (fun i => (b i).1) y.1 ∧ F.Approx (fun i => (b i).2.1) y.2.1 ∧ F.Approx (fun i => (b i).2.2.1) y.2.2.1 ∧
    F.Approx (fun i => (b i).2.2.2) y.2.2.2 ∧ y.1 ≠ 0 ∧ y.2.1 ≠ 0

set_option maxHeartbeats 1000000 in
theorem refine_pflLos {P : ∀ i, PropSt (α i)} {p : PropSt ℝ} (h : TermApx F P p) (hd : F.Approx (fun i => (P i).dist) p.dist) (hh : F.Approx (fun i => (P i).dh) p.dh)
    (pd : p.dh ≠ 0) (p0 : 0 < p.hg.x0) (p1 : 0 < p.hg.x1) (pdist : p.dist ≠ 0) {X : ∀ i, Pair (α i)} {x : Pair ℝ} (hX : TwoApx F X x)
    (c1 : OffGrid (x.x0 / p.pfl.xi)) (c2 : OffGrid ((p.pfl.np : ℝ) - x.x1 / p.pfl.xi))
    (c3 : ∀ za zb g0 g1 d0 d1, zlsq1 p.pfl x.x0 x.x1 = .ok (za, zb) → p.pfl.get 2 = .ok g0 → p.pfl.get (p.pfl.np + 1) = .ok g1 →
      pflDl (p.hg.x0 + pyMax (g0 - za) 0.0) p.gme p.dh = .ok d0 → pflDl (p.hg.x1 + pyMax (g1 - zb) 0.0) p.gme p.dh = .ok d1 → d0 + d1 ≠ p.dist) :
    Follows l (GeoApx F P) (fun i => pflLos (P i) (X i)) (pflLos p x) := by
  unfold pflLos
  refine Follows.bind (refine_zlsq1 h.pfl hX.1 hX.2 (.inr c1) (.inr c2)) (fun Z z hz hZ => ?_)
  obtain ⟨za, zb⟩ := z
  dsimp only
  refine Follows.bind (h.pfl.get 2) (fun G0 g0 eg0 hG0 => ?_)
  refine Follows.bind (h.pfl.get_np 1) (fun G1 g1 eg1 hG1 => ?_)
  have hE0 : F.Approx (fun i => ((P i).hg.x0 + pyMax (G0 i - (Z i).1) 0.0 : α i)) (p.hg.x0 + pyMax (g0 - za) 0.0) := refine_raised h.hg.1 hG0 hZ.1
  have hE1 : F.Approx (fun i => ((P i).hg.x1 + pyMax (G1 i - (Z i).2) 0.0 : α i)) (p.hg.x1 + pyMax (g1 - zb) 0.0) := refine_raised h.hg.2 hG1 hZ.2
  have n0 : 0 < p.hg.x0 + pyMax (g0 - za) 0.0 := by
    rw [pyMax_real, zero_lit]; have := le_max_right (g0 - za) 0; linarith
  have n1 : 0 < p.hg.x1 + pyMax (g1 - zb) 0.0 := by
    rw [pyMax_real, zero_lit]; have := le_max_right (g1 - zb) 0; linarith
  replace c3 := fun d0 d1 => c3 za zb g0 g1 d0 d1 hz eg0 eg1
  generalize hu0 : p.hg.x0 + pyMax (g0 - za) 0.0 = e0 at hE0 n0 c3 ⊢
  generalize hu1 : p.hg.x1 + pyMax (g1 - zb) 0.0 = e1 at hE1 n1 c3 ⊢
  refine Follows.bind (refine_pflDl hE0 h.gme hh n0.ne' pd) (fun L0 l0 el0 hL0 => ?_)
  refine Follows.bind (refine_pflDl hE1 h.gme hh n1.ne' pd) (fun L1 l1 el1 hL1 => ?_)
  have hq := hL0.add hL1
  have tail : ∀ {B : ∀ i, α i × α i × α i × α i} {b : ℝ × ℝ × ℝ × ℝ}, Four F B b → Follows l (GeoApx F P)
      (fun i => do
        let the0 ← pflThe (B i).1 (B i).2.2.1 (P i).gme (P i).dh
        let the1 ← pflThe (B i).2.1 (B i).2.2.2 (P i).gme (P i).dh
        pure { P i with he := ⟨(B i).1, (B i).2.1⟩, dl := ⟨(B i).2.2.1, (B i).2.2.2⟩, the := ⟨the0, the1⟩ })
      (do
        let the0 ← pflThe b.1 b.2.2.1 p.gme p.dh
        let the1 ← pflThe b.2.1 b.2.2.2 p.gme p.dh
        pure { p with he := ⟨b.1, b.2.1⟩, dl := ⟨b.2.2.1, b.2.2.2⟩, the := ⟨the0, the1⟩ }) := by
    intro B b ⟨k0, k1, k2, k3, k4, k5⟩
    refine Follows.bind (refine_pflThe k0 k2 h.gme hh k4) (fun T0 t0 _ hT0 => ?_)
    refine Follows.bind (refine_pflThe k1 k3 h.gme hh k5) (fun T1 t1 _ hT1 => ?_)
    exact Follows.pure ⟨⟨k0, k1⟩, ⟨k2, k3⟩, ⟨hT0, hT1⟩, fun _ => rfl⟩
  refine Follows.ite (hq.le_iff hd (c3 _ _ el0 el1)) (fun _ => ?_) (fun _ => ?_)
  · refine Follows.bind (Follows.div hd hq) (fun R r er hR => ?_)
    obtain ⟨nq, er⟩ := pyDiv_eq_ok.1 er
    have hR2 := hR.npow 2
    have nr : npow r 2 ≠ 0 := by rw [npow_real, er]; exact pow_ne_zero _ (div_ne_zero pdist nq)
    refine Follows.bind (refine_pflDl (hE0.mul hR2) h.gme hh (mul_ne_zero n0.ne' nr) pd) (fun M0 m0 _ hM0 => ?_)
    refine Follows.bind (refine_pflDl (hE1.mul hR2) h.gme hh (mul_ne_zero n1.ne' nr) pd) (fun M1 m1 _ hM1 => ?_)
    exact Follows.bind (Q := Four F) (Follows.pure ⟨hE0.mul hR2, hE1.mul hR2, hM0, hM1, mul_ne_zero n0.ne' nr, mul_ne_zero n1.ne' nr⟩)
      (fun B b _ hB => tail hB)
  · exact Follows.bind (Q := Four F) (Follows.pure ⟨hE0, hE1, hL0, hL1, n0.ne', n1.ne'⟩) (fun B b _ hB => tail hB)

theorem refine_pflObs {P : ∀ i, PropSt (α i)} {p : PropSt ℝ} (h : TermApx F P p) (hd : F.Approx (fun i => (P i).dist) p.dist)
    (hL : TwoApx F (fun i => (P i).dl) p.dl) (hT : TwoApx F (fun i => (P i).the) p.the) {X : ∀ i, Pair (α i)} {x : Pair ℝ} (hX : TwoApx F X x)
    (c1 : OffGrid (x.x0 / p.pfl.xi)) (c2 : OffGrid ((p.pfl.np : ℝ) - x.x1 / p.pfl.xi)) (c3 : OffGrid ((p.pfl.np : ℝ) - 0.9 * p.dl.x0 / p.pfl.xi))
    (c4 : OffGrid ((p.dist - 0.9 * p.dl.x1) / p.pfl.xi)) :
    Follows l (GeoApx F P) (fun i => pflObs (P i) (X i)) (pflObs p x) := by
  unfold pflObs
  have a0 : F.Approx (fun i => (0.9 * (P i).dl.x0 : α i)) (0.9 * p.dl.x0) := (Refining.Approx.lit (F := F) 9 true 1).mul hL.1
  have a1 : F.Approx (fun i => ((P i).dist - 0.9 * (P i).dl.x1 : α i)) (p.dist - 0.9 * p.dl.x1) := hd.sub ((Refining.Approx.lit (F := F) 9 true 1).mul hL.2)
  refine Follows.bind (refine_zlsq1 h.pfl hX.1 a0 (.inr c1) (.inr c3)) (fun Z z hz hZ => ?_)
  refine Follows.bind (refine_zlsq1 h.pfl a1 hX.2 (.inr c4) (.inr c2)) (fun W w hw hW => ?_)
  obtain ⟨za, _⟩ := z
  obtain ⟨_, zb⟩ := w
  dsimp only
  refine Follows.bind (h.pfl.get 2) (fun G0 g0 eg0 hG0 => ?_)
  refine Follows.bind (h.pfl.get_np 2) (fun G1 g1 eg1 hG1 => ?_)
  exact Follows.pure ⟨⟨refine_raised h.hg.1 hG0 hZ.1, refine_raised h.hg.2 hG1 hW.2⟩, hL, hT, fun _ => rfl⟩

/-- What the preparation leaves. -/
structure WayApx (F : Refining l α ε) (P Q : ∀ i, PropSt (α i)) (q : PropSt ℝ) : Prop where
  dist : F.Approx (fun i => (Q i).dist) q.dist
  dh : F.Approx (fun i => (Q i).dh) q.dh
  he : TwoApx F (fun i => (Q i).he) q.he
  dl : TwoApx F (fun i => (Q i).dl) q.dl
  the : TwoApx F (fun i => (Q i).the) q.the
  rest : ∀ i, Q i = prepMarks { P i with he := (Q i).he, dl := (Q i).dl, the := (Q i).the, dist := (Q i).dist, dh := (Q i).dh, mdp := -1 }

theorem horizons_of {p : PropSt ℝ} {n : ℕ} (hn : 1 ≤ n) (hnp : p.pfl.np = n) (hx : 0 < p.pfl.xi) (hl : n < p.pfl.z.length) {the dl : Pair ℝ}
    (e : hzns p.pfl (n * p.pfl.xi) p.hg p.gme = .ok (the, dl)) : (pathOf p n).Horizons the.x0 the.x1 dl.x0 dl.x1 := by
  obtain ⟨ta, tb, da, db, hz', H⟩ := C35_horizons (κ := p.gme) (ha := p.hg.x0) (hb := p.hg.x1) hn hnp hx hl
  have hz'' : hzns p.pfl (n * p.pfl.xi) p.hg p.gme = .ok (⟨ta, tb⟩, ⟨da, db⟩) := hz'
  rw [e, ok_inj, Prod.mk.injEq] at hz''
  obtain ⟨rfl, rfl⟩ := hz''
  exact H

theorem if_bind {β γ : Type} {c : Prop} [Decidable c] (m n : Py β) (f : β → Py γ) : (if c then m >>= f else n >>= f) = (if c then m else n) >>= f := by
  split_ifs <;> rfl

theorem prepMarks_keeps {β : Type} [PyNum β] (r : PropSt β) : (prepMarks r).dist = r.dist ∧ (prepMarks r).dh = r.dh ∧ (prepMarks r).he = r.he ∧
    (prepMarks r).dl = r.dl ∧ (prepMarks r).the = r.the := by
  rw [(prepMarks_marked r).rest]
  exact ⟨rfl, rfl, rfl, rfl, rfl⟩

set_option maxHeartbeats 1000000 in
theorem refine_way {P : ∀ i, PropSt (α i)} {p q : PropSt ℝ} {n : ℕ} (h : TermApx F P p) (hn : 1 ≤ n) (hnp : p.pfl.np = n) (hx : 0 < p.pfl.xi)
    (hl : n < p.pfl.z.length) (hg0 : 0 < p.hg.x0) (hg1 : 0 < p.hg.x1) (hκ : 0 < p.gme) (e : qlrpflPrep p = .ok q)
    (g : (pathOf p n).Generic (p.pfl.z.getD (n - 1) 0) q.dh) :
    ∃ Q : ∀ i, PropSt (α i), (∀ᶠ i in l, qlrpflPrep (P i) = .ok (Q i)) ∧ WayApx F P Q q := by
  obtain ⟨q', e', PR⟩ := qlrpflPrep_ok hn hnp hx hl hg0 hg1 hκ
  rw [e, ok_inj] at e'
  subst e'
  obtain ⟨⟨the, dl, dh, x1, x2, hz, hx1, hx2, a1, a12, a2, edh, hdh, qdh, -⟩, rest⟩ := PR
  have hn' : (0 : ℝ) < n := by exact_mod_cast hn
  have hs := hz_sum hn hnp hx hl hz
  have hD0 : 0 < n * p.pfl.xi := by positivity
  have hnr : (p.pfl.np : ℝ) = n := by rw [hnp]; rfl
  have e15 : (15.0 : ℝ) = 15 := by norm_num
  have gg := g _ _ _ _ x1 x2 (horizons_of hn hnp hx hl hz) hx1 hx2
  have hD : F.Approx (fun i => (PyNum.ofInt (P i).pfl.np * (P i).pfl.xi : α i)) (n * p.pfl.xi) := by
    have := (Refining.Approx.whole F p.pfl.np).mul h.pfl.xi
    rw [hnr] at this
    exact this.congr (by filter_upwards [h.pfl.np] with i k; rw [k])
  obtain ⟨T, L, hTL, hT, hL⟩ := refine_hzns h.pfl h.hg h.gme hD hn hnp hx hl hz gg.horizons.1 gg.horizons.2
  have hX0 : F.Approx (fun i => (pyMin (15.0 * (P i).hg.x0) (0.1 * (L i).x0) : α i)) x1 := by
    have := ((Refining.Approx.lit (F := F) 150 true 1).mul h.hg.1).pyMin ((Refining.Approx.lit (F := F) 1 true 1).mul hL.1)
    convert this using 1
    rw [pyMin_real, hx1, ← e15]
  have hX1 : F.Approx (fun i => (PyNum.ofInt (P i).pfl.np * (P i).pfl.xi - pyMin (15.0 * (P i).hg.x1) (0.1 * (L i).x1) : α i)) x2 := by
    have := hD.sub (((Refining.Approx.lit (F := F) 150 true 1).mul h.hg.2).pyMin ((Refining.Approx.lit (F := F) 1 true 1).mul hL.2))
    convert this using 1
    rw [pyMin_real, hx2, ← e15]
  obtain ⟨H, hH, aH⟩ := refine_dlthx h.pfl hX0 hX1 (by unfold Pfl.len; omega) (div_pos a1 hx) gg.start gg.spread dh edh
  unfold qlrpflPrep at e
  dsimp only at e
  rw [rofInt, hnr, hz, ok_bind] at e
  dsimp only at e
  simp only [pyMin_real] at e
  rw [e15, ← hx1, ← hx2, edh, ok_bind, if_bind] at e
  obtain ⟨q1, e1, eq⟩ := bind_eq_ok.1 e
  have eq := ok_inj.1 eq
  have hsum := hL.1.add hL.2
  have hc : F.Approx (fun i => (1.5 * (PyNum.ofInt (P i).pfl.np * (P i).pfl.xi) : α i)) (1.5 * (n * p.pfl.xi)) :=
    (Refining.Approx.lit (F := F) 15 true 1).mul hD
  have hne : 1.5 * (n * p.pfl.xi) ≠ dl.x0 + dl.x1 := by
    rcases hs with ⟨k, -⟩ | ⟨-, -, k, -⟩
    · rw [k]; norm_num; intro h; linarith
    · norm_num; intro h; linarith
  have hterm : TermApx F (fun i => { P i with dist := PyNum.ofInt (P i).pfl.np * (P i).pfl.xi, the := T i, dl := L i, dh := H i })
      { p with dist := n * p.pfl.xi, the, dl, dh } := ⟨h.pfl, h.hg, h.gme⟩
  have o2 : OffGrid ((p.pfl.np : ℝ) - x2 / p.pfl.xi) := by
    rw [sub_eq_neg_add]; exact gg.stop.neg.add _
  obtain ⟨B, hB, gB⟩ := Follows.ite (Q := GeoApx F (fun i => { P i with dist := PyNum.ofInt (P i).pfl.np * (P i).pfl.xi, the := T i, dl := L i, dh := H i }))
    (m := fun i => pflLos { P i with dist := PyNum.ofInt (P i).pfl.np * (P i).pfl.xi, the := T i, dl := L i, dh := H i }
      ⟨pyMin (15.0 * (P i).hg.x0) (0.1 * (L i).x0), PyNum.ofInt (P i).pfl.np * (P i).pfl.xi - pyMin (15.0 * (P i).hg.x1) (0.1 * (L i).x1)⟩)
    (n := fun i => pflObs { P i with dist := PyNum.ofInt (P i).pfl.np * (P i).pfl.xi, the := T i, dl := L i, dh := H i }
      ⟨pyMin (15.0 * (P i).hg.x0) (0.1 * (L i).x0), PyNum.ofInt (P i).pfl.np * (P i).pfl.xi - pyMin (15.0 * (P i).hg.x1) (0.1 * (L i).x1)⟩)
    (hc.le_iff hsum hne)
    (fun c => by
      have hall : ∀ j : ℕ, 1 ≤ j → j < n → elevation p.gme (p.pfl.h 0 + p.hg.x0) (j * p.pfl.xi) (p.pfl.h j) ≤
          elevation p.gme (p.pfl.h 0 + p.hg.x0) (n * p.pfl.xi) (p.pfl.h n + p.hg.x1) := by
        rcases hs with ⟨-, k⟩ | ⟨-, -, k, -⟩
        · exact k
        · exfalso; norm_num at c; linarith
      have hcl : (pathOf p n).Clear := (clear_iff hn hx).2 hall
      have pdh : 0 < dh := by have := gg.rough hcl; rwa [qdh] at this
      refine refine_pflLos hterm hD aH pdh.ne' hg0 hg1 hD0.ne' ⟨hX0, hX1⟩ gg.start o2 (fun za zb g0 g1 d0 d1 ez eg0 eg1 ed0 ed1 => ?_)
      dsimp only at *
      rw [zlsq1_line hx (by omega) a1.le a12 (by rw [hnr]; exact a2.le), ok_inj, Prod.mk.injEq] at ez
      obtain ⟨c', s, hf, hv⟩ := lineAt_fit (p := p) (n := n) hx a12
      have k := gg.reach hcl c' s hf
      have v0 := hv 0
      have v1 := hv n
      rw [mul_zero, add_zero] at v0
      rw [v0] at ez
      rw [hnr, v1] at ez
      have q0 : p.pfl.get 2 = .ok (p.pfl.h 0) := by
        have := Pfl.get_ok (p := p.pfl) (j := 0) (by omega)
        exact this
      have q1 : p.pfl.get (p.pfl.np + 1) = .ok (p.pfl.h (n - 1)) := by
        have := Pfl.get_ok (p := p.pfl) (j := n - 1) (by omega)
        rw [hnp, show (n : ℤ) + 1 = ((n - 1 : ℕ) : ℤ) + 2 by omega]; exact this
      rw [q0, ok_inj] at eg0
      rw [q1, ok_inj] at eg1
      rw [← eg0, ← ez.1, pyMax_real, zero_lit, pflDl_ok hκ (by have := le_max_right (p.pfl.h 0 - c') 0; linarith) hdh, ok_inj] at ed0
      rw [← eg1, ← ez.2, pyMax_real, zero_lit, pflDl_ok hκ (by have := le_max_right (p.pfl.h (n - 1) - (c' + s * n)) 0; linarith) hdh, ok_inj] at ed1
      rw [← ed0, ← ed1]
      rw [qdh] at k
      exact k)
    (fun c => by
      have hncl : ¬ (pathOf p n).Clear := by
        intro hcl
        have := (clear_iff hn hx).1 hcl
        rcases hs with ⟨k, -⟩ | ⟨-, -, -, j, j1, j2, j3⟩
        · apply c; rw [k]; norm_num; linarith
        · exact absurd (this j j1 j2) (not_le.2 j3)
      refine refine_pflObs hterm hD hL hT ⟨hX0, hX1⟩ gg.start o2 ?_ (gg.aft hncl)
      show OffGrid ((p.pfl.np : ℝ) - 0.9 * dl.x0 / p.pfl.xi)
      rw [sub_eq_neg_add]; exact (gg.fore hncl).neg.add _) q1 e1
  refine ⟨fun i => prepMarks { B i with mdp := -1 }, ?_, ?_⟩
  · filter_upwards [hTL, hH, hB] with i k1 k2 k3
    unfold qlrpflPrep
    dsimp only
    rw [k1, ok_bind]
    dsimp only
    rw [k2, ok_bind, if_bind]
    rw [k3]
    rfl
  · have kp := fun i => prepMarks_keeps { B i with mdp := -1 }
    have kq := prepMarks_keeps { q1 with mdp := -1 }
    rw [eq] at kq
    have rd : q.dist = n * p.pfl.xi := by rw [rest]
    refine ⟨?_, ?_, ?_, ?_, ?_, fun i => ?_⟩
    · rw [rd]
      refine hD.congr (Eventually.of_forall fun i => ?_)
      rw [(kp i).1, gB.rest i]
    · rw [qdh]
      refine aH.congr (Eventually.of_forall fun i => ?_)
      rw [(kp i).2.1, gB.rest i]
    · simp only [(kp _).2.2.1]
      rw [kq.2.2.1]; exact gB.he
    · simp only [(kp _).2.2.2.1]
      rw [kq.2.2.2.1]; exact gB.dl
    · simp only [(kp _).2.2.2.2]
      rw [kq.2.2.2.2]; exact gB.the
    · obtain ⟨w1, w2, w3, w4, w5⟩ := kp i
      dsimp only
      rw [w1, w2, w3, w4, w5, gB.rest i]

end Itm

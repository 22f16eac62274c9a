import Verif.Spec.Clear
import Verif.Lemmas.RefineRun
import Verif.Lemmas.Hill
import Verif.Lemmas.Fixed

/-! C95: with growing precision, what `lrprop` computes approaches the published attenuation, with an error of the order of the precision. -/

namespace Itm.Props
open Itm.Spec Filter Asymptotics Topology

variable {ι : Type} {l : Filter ι} {α : ι → Type} [∀ i, PyNum (α i)] {ε : ι → ℝ}

/-- **C95** In arithmetics of growing precision, on inputs known to that precision, a first call finally returns and its attenuation approximates
the reference attenuation of the link, with an error of the order of the precision: the formulas lose none of it, whatever the link, as long as the
exact computation meets no threshold. -/
theorem C95_attenuation (F : Refining l α ε) {P : ∀ i, PropSt (α i)} {p q : PropSt ℝ} (hP : F.Inputs P p) {D : ∀ i, α i} {d : ℝ}
    (hD : F.Approx (fun i => if 0 ≤ p.mdp then D i else (P i).dist) (if 0 ≤ p.mdp then d else p.dist)) (hm : p.mdp ≠ 0) (a : Adm (inp p)) (pdh : 0 < p.dh)
    (hq : lrprop d p = .ok q) (pd : 0 < q.dist) (c : (linkOf p).Clear q.dist) :
    ∃ (Q : ∀ i, PropSt (α i)) (A : ∀ i, α i), (∀ᶠ i in l, lrprop (D i) (P i) = .ok (Q i) ∧ (Q i).aref = some (A i)) ∧
      F.Approx A ((linkOf p).reference q.dist) := by
  obtain ⟨hd, s, k, hs, hk, ha⟩ := setup_call hm hq
  have hi := hP.apx
  have hD' : F.Approx (fun i => distOf (P i) (D i)) q.dist := by
    rw [hd]
    unfold distOf
    simp only [hP.mdp]
    exact hD
  obtain ⟨S, hS, aS⟩ := refine_setup (mdp := p.mdp) hi a pdh (link_terms a c.diff) (link_edges c.diff) s hs
  rw [← hd] at hk
  obtain ⟨C, hC, A, v, hA, hv, aA⟩ := refine_run hs hi a pdh aS hD' pd c.horizon c.sight c.scatter
    (C := fun i => { cacheOf (P i) with wlos := false, wscat := false, ascat1 := 0.0 }) (fun _ => rfl) (fun _ => rfl) (fun _ => rfl) rfl rfl rfl k hk
  have er : q.aref = some ((linkOf p).reference q.dist) := by
    by_cases near : q.dist < (linkOf p).dlsa
    · exact C57_line_of_sight hm hq pd near
    · have far : (linkOf p).dlsa < q.dist := lt_of_le_of_ne (not_lt.1 near) c.horizon.symm
      have sc := c.scatter far
      exact C57_beyond hm hq (.inr far.le) (sc.h5.usable.imp le_of_lt le_of_lt) (sc.h6.usable.imp le_of_lt le_of_lt)
  have ev : v = (linkOf p).reference q.dist := by
    rw [ha, hv] at er
    exact Option.some.inj er
  rw [← ev]
  refine ⟨fun i => setCache { withSetup (P i) (S i) with
    dist := distOf (P i) (D i), mdp := mdpOf (P i), kwx := distKwxC (S i).l (distOf (P i) (D i)) (lrKwx (P i) (S i).h) } (C i), A, ?_, aA⟩
  filter_upwards [hS, hC, hA] with i k1 k2 k3
  refine ⟨?_, k3⟩
  rw [lrprop_setup (by rw [hP.mdp]; exact hm), hP.mdp, k1, ok_bind, k2, ok_bind, pure_ok]

/-- Inputs rounded to `n` binary digits after the point. -/
noncomputable def gridIn (n : ℕ) (i : LrIn ℝ) : LrIn (Fixed n) :=
  { hg := ⟨⟨grid n i.hg.x0⟩, ⟨grid n i.hg.x1⟩⟩, he := ⟨⟨grid n i.he.x0⟩, ⟨grid n i.he.x1⟩⟩, dl := ⟨⟨grid n i.dl.x0⟩, ⟨grid n i.dl.x1⟩⟩,
    the := ⟨⟨grid n i.the.x0⟩, ⟨grid n i.the.x1⟩⟩, wn := ⟨grid n i.wn⟩, dh := ⟨grid n i.dh⟩, ens := ⟨grid n i.ens⟩, gme := ⟨grid n i.gme⟩,
    zgnd := ⟨⟨grid n i.zgnd.re⟩, ⟨grid n i.zgnd.im⟩⟩ }

/-- Non-vacuity: the hilly link, rounded to fixed-point numbers and computed with them, at every distance but that of the
horizon. -/
example (d : ℝ) (h0 : 0 < d) (hd : d ≠ 160000) : ∃ (Q : ∀ n, PropSt (Fixed n)) (A : ∀ n, Fixed n),
    (∀ᶠ n in atTop, lrprop ⟨grid n d⟩ (blank 1 (gridIn n hillIn)) = .ok (Q n) ∧ (Q n).aref = some (A n)) ∧
    (fun n => (A n).val - (linkOf hill).reference d) =O[atTop] fun n => (1 / 2 : ℝ) ^ n := by
  obtain ⟨q, hq⟩ := hill_total d h0
  have e : q.dist = d := (setup_call (by decide) hq).1
  have hP : gridRefining.Inputs (fun n => blank 1 (gridIn n hillIn)) hill :=
    ⟨fun _ => rfl, grid_approx _, grid_approx _, grid_approx _, grid_approx _, grid_approx _, grid_approx _, grid_approx _, grid_approx _,
      grid_approx _, grid_approx _, grid_approx _, grid_approx _, grid_approx _, grid_approx _⟩
  obtain ⟨Q, A, h, a⟩ := C95_attenuation gridRefining (D := fun n => ⟨grid n d⟩) hP (grid_approx d) (by decide) hill_adm
    (show (0 : ℝ) < 90 by norm_num) hq (by rw [e]; exact h0) (by rw [e]; exact hill_clear hd)
  rw [e] at a
  exact ⟨Q, A, h, a.2⟩

end Itm.Props

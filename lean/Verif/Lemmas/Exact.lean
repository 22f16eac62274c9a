import Verif.Spec.Stable
import Mathlib.Data.List.GetD
import Mathlib.Topology.MetricSpace.Pseudo.Defs
import Mathlib.Analysis.Normed.Group.Basic

/-! Exact arithmetic on inputs that are off by `δ` is a family of arithmetics of precision `δ`: what the growing-precision theorems say of it is that
the programs are stable. -/

namespace Itm
open Spec Filter Asymptotics Topology

theorem accurate_self {ε : ℝ} (hε : 0 < ε) (x : ℝ) : Accurate (fun _ : ℝ => True) id ε x x :=
  fun _ => ⟨trivial, by rw [id, sub_self, abs_zero]; positivity⟩

/-- The reals as an arithmetic of precision `ε`. -/
noncomputable def exactArith {ε : ℝ} (hε : 0 < ε) : Arith ℝ ε where
  fin _ := True
  val := id
  lit _ _ _ := accurate_self hε _
  whole _ _ _ _ h _ := ⟨trivial, h⟩
  ofInt _ _ := ⟨trivial, rfl⟩
  add _ _ _ _ := accurate_self hε _
  sub _ _ _ _ := accurate_self hε _
  mul _ _ _ _ := accurate_self hε _
  div _ _ _ _ _ := accurate_self hε _
  zdiv a b _ _ h _ := by show a / b = 0; rw [show a = 0 from h, zero_div]
  neg _ _ := ⟨trivial, rfl⟩
  abs _ _ := ⟨trivial, rfl⟩
  lt _ _ _ _ := Iff.rfl
  le _ _ _ _ := Iff.rfl
  sqrt _ _ _ := accurate_self hε _
  exp _ _ := accurate_self hε _
  log _ _ _ := accurate_self hε _
  sin _ _ := accurate_self hε _
  cos _ _ := accurate_self hε _
  rpow _ _ _ _ _ := accurate_self hε _
  floor _ _ := rfl
  round4 _ _ := accurate_self hε _

/-- A perturbation: its size and the perturbed input. -/
def Pert {I : Type} (C : ℝ → I → Prop) : Type := { i : ℝ × I // 0 < i.1 ∧ C i.1 i.2 }

variable {I : Type} {C : ℝ → I → Prop}

/-- The size of a perturbation. -/
def Pert.size (i : Pert C) : ℝ := i.1.1

/-- The perturbed input. -/
def Pert.input (i : Pert C) : I := i.1.2

/-- Perturbations that tend to nothing. -/
def Pert.small (C : ℝ → I → Prop) : Filter (Pert C) := comap Pert.size (𝓝 0)

/-- The exact programs on perturbed inputs. -/
noncomputable def Pert.refining (C : ℝ → I → Prop) : Refining (Pert.small C) (fun _ => ℝ) Pert.size where
  arith i := exactArith i.2.1
  pos i := i.2.1
  tends := tendsto_comap

theorem Pert.eventually {P : Pert C → Prop} (h : ∀ᶠ i in Pert.small C, P i) :
    ∃ δ₀ : ℝ, 0 < δ₀ ∧ ∀ (δ : ℝ) (x : I) (h0 : 0 < δ), δ < δ₀ → ∀ c : C δ x, P ⟨(δ, x), h0, c⟩ := by
  obtain ⟨s, hs, h⟩ := mem_comap.1 h
  obtain ⟨e, he, hs⟩ := Metric.mem_nhds_iff.1 hs
  refine ⟨e, he, fun δ x h0 hδ c => h (hs ?_)⟩
  show dist δ 0 < e
  rw [Real.dist_eq, sub_zero, abs_of_pos h0]; exact hδ

theorem Pert.approx {a : Pert C → ℝ} {x : ℝ} (h : ∀ i, |a i - x| ≤ i.size) : (Pert.refining C).Approx a x := by
  refine ⟨Eventually.of_forall fun _ => trivial, IsBigO.of_bound 1 (Eventually.of_forall fun i => ?_)⟩
  rw [one_mul, Real.norm_eq_abs, Real.norm_eq_abs, abs_of_pos (show 0 < i.size from i.2.1)]
  exact h i

theorem Pert.bound {a : Pert C → ℝ} {x : ℝ} (h : (Pert.refining C).Approx a x) : ∃ K, ∀ᶠ i in Pert.small C, |a i - x| ≤ K * i.size := by
  obtain ⟨K, hK⟩ := h.2.bound
  refine ⟨K, hK.mono fun i hi => ?_⟩
  rw [Real.norm_eq_abs, Real.norm_eq_abs, abs_of_pos (show 0 < i.size from i.2.1)] at hi
  exact hi

theorem Pert.seq {A : Pert C → List ℝ} {a : List ℝ} (h : ∀ i, Within i.size a (A i)) : SeqApx (Pert.refining C) A a := by
  have len : ∀ i, (A i).length = a.length := fun i => (h i).length_eq.symm
  refine ⟨Eventually.of_forall len, fun j x hx => ⟨fun i => (A i).getD j 0, Eventually.of_forall fun i => ?_, Pert.approx fun i => ?_⟩⟩
  · obtain ⟨hj, -⟩ := List.getElem?_eq_some_iff.1 hx
    have hj' : j < (A i).length := by rw [len]; exact hj
    dsimp only
    rw [List.getElem?_eq_getElem hj', List.getD_eq_getElem _ _ hj']
  · obtain ⟨hj, rfl⟩ := List.getElem?_eq_some_iff.1 hx
    have hj' : j < (A i).length := by rw [len]; exact hj
    rw [List.getD_eq_getElem _ _ hj']
    exact (h i).get hj hj'

/-- Finitely many rows: one constant. -/
theorem rows_uniform {ι ρ σ : Type} {l : Filter ι} {ε : ι → ℝ} (hε : ∀ i, 0 < ε i) {rows : List ρ} {R : ι → List σ} {T : ℝ → ρ → σ → Prop}
    (mono : ∀ {u v a b}, u ≤ v → T u a b → T v a b) (len : ∀ᶠ i in l, (R i).length = rows.length)
    (h : ∀ (j : ℕ) (row : ρ), rows[j]? = some row → ∃ K : ℝ, ∀ᶠ i in l, ∃ row', (R i)[j]? = some row' ∧ T (K * ε i) row row') :
    ∃ K : ℝ, 0 ≤ K ∧ ∀ᶠ i in l, List.Forall₂ (T (K * ε i)) rows (R i) := by
  have h' : ∀ j : Fin rows.length, ∃ K : ℝ, ∀ᶠ i in l, ∃ row', (R i)[(j : ℕ)]? = some row' ∧ T (K * ε i) rows[j] row' :=
    fun j => h j _ (List.getElem?_eq_getElem j.2)
  choose K hK using h'
  refine ⟨∑ j, |K j|, Finset.sum_nonneg fun _ _ => abs_nonneg _, ?_⟩
  filter_upwards [len, eventually_all.2 hK] with i hl hi
  refine List.forall₂_iff_get.2 ⟨hl.symm, fun j h1 h2 => ?_⟩
  obtain ⟨row', e, t⟩ := hi ⟨j, h1⟩
  obtain ⟨_, rfl⟩ := List.getElem?_eq_some_iff.1 e
  refine mono (mul_le_mul_of_nonneg_right ((le_abs_self _).trans ?_) (hε i).le) t
  exact Finset.single_le_sum (f := fun j => |K j|) (fun _ _ => abs_nonneg _) (Finset.mem_univ _)

end Itm

import Verif.Spec.EndToEnd
import Mathlib.Analysis.SpecialFunctions.Pow.Continuity
import Mathlib.Analysis.SpecialFunctions.Exp
import Mathlib.Analysis.SpecialFunctions.Sqrt
import Mathlib.Topology.Algebra.Order.Field
import Mathlib.Tactic.FunProp
import Mathlib.Tactic.Positivity
import Mathlib.Tactic.Linarith
import Mathlib.Tactic.FieldSimp

/-! The published quantile and the published loss are continuous. -/

namespace Itm.Spec
variable {X : Type} [TopologicalSpace X]

theorem climCurve_continuous (k : ℤ) (i : ℕ) {f : X → ℝ} (hf : Continuous f) : Continuous fun x => climCurve k i (f x) := by
  unfold climCurve
  have h1 : ∀ x, 1 + ((f x - entry k (i + 3)) / entry k (i + 4)) ^ 2 ≠ 0 := fun x => by positivity
  have h2 : ∀ x, 1 + (f x / entry k (i + 2)) ^ 2 ≠ 0 := fun x => by positivity
  have e1 : Continuous fun x => 1 + ((f x - entry k (i + 3)) / entry k (i + 4)) ^ 2 := by fun_prop
  have e2 : Continuous fun x => 1 + (f x / entry k (i + 2)) ^ 2 := by fun_prop
  have e3 : Continuous fun x => (f x / entry k (i + 2)) ^ 2 := by fun_prop
  exact (continuous_const.add (continuous_const.div e1 h1)).mul (e3.div e2 h2)

theorem freqCurve_continuous (k : ℤ) (i : ℕ) {w : X → ℝ} (hw : Continuous w) (hp : ∀ x, 0 < w x) :
    Continuous fun x => freqCurve k i (w x) := by
  unfold freqCurve
  have hl : Continuous fun x => Real.log (0.133 * w x) :=
    Continuous.log (continuous_const.mul hw) fun x => (mul_pos (by norm_num) (hp x)).ne'
  have h1 : ∀ x, 1 + (entry k (i + 2) * Real.log (0.133 * w x)) ^ 2 ≠ 0 := fun x => by positivity
  have e1 : Continuous fun x => 1 + (entry k (i + 2) * Real.log (0.133 * w x)) ^ 2 := by fun_prop
  exact continuous_const.add (continuous_const.div e1 h1)

theorem crossDist_pos {h₀ h₁ w : ℝ} (hw : 0 < w) : 0 < crossDist h₀ h₁ w := by
  unfold crossDist
  have := Real.rpow_pos_of_pos (show (0:ℝ) < 575.7e12 / w by positivity) (1 / 3 : ℝ)
  have a := Real.sqrt_nonneg (2 * 9e6 * h₀)
  have b := Real.sqrt_nonneg (2 * 9e6 * h₁)
  linarith

theorem crossDist_continuous {h₀ h₁ w : X → ℝ} (c0 : Continuous h₀) (c1 : Continuous h₁) (cw : Continuous w) (hp : ∀ x, 0 < w x) :
    Continuous fun x => crossDist (h₀ x) (h₁ x) (w x) := by
  unfold crossDist
  have e : Continuous fun x => 575.7e12 / w x := continuous_const.div cw fun x => (hp x).ne'
  have r : Continuous fun x => (575.7e12 / w x) ^ (1 / 3 : ℝ) := e.rpow_const fun x => .inr (by norm_num)
  exact ((continuous_const.mul c0).sqrt.add (continuous_const.mul c1).sqrt).add r

theorem effectiveDist_continuous {d h₀ h₁ w : X → ℝ} (cd : Continuous d) (c0 : Continuous h₀) (c1 : Continuous h₁) (cw : Continuous w)
    (hp : ∀ x, 0 < w x) : Continuous fun x => effectiveDist (d x) (h₀ x) (h₁ x) (w x) := by
  unfold effectiveDist
  have c := crossDist_continuous c0 c1 cw hp
  have e : (fun x => if d x < crossDist (h₀ x) (h₁ x) (w x) then d x / crossDist (h₀ x) (h₁ x) (w x) * 130e3
      else d x - crossDist (h₀ x) (h₁ x) (w x) + 130e3) = fun x => if crossDist (h₀ x) (h₁ x) (w x) ≤ d x then
        d x - crossDist (h₀ x) (h₁ x) (w x) + 130e3 else d x / crossDist (h₀ x) (h₁ x) (w x) * 130e3 := by
    funext x
    by_cases h : crossDist (h₀ x) (h₁ x) (w x) ≤ d x
    · rw [if_neg (not_lt.2 h), if_pos h]
    · rw [if_pos (not_le.1 h), if_neg h]
  rw [e]
  refine Continuous.if_le ((cd.sub c).add continuous_const)
    ((cd.div c fun x => (crossDist_pos (hp x)).ne').mul continuous_const) c cd fun x h => ?_
  rw [← h, sub_self, div_self (crossDist_pos (hp x)).ne']; ring

/-- The threshold of far-above-median variability is not negative. -/
theorem entry16_nonneg (k : ℤ) : 0 ≤ entry k 16 := by
  unfold entry
  show 0 ≤ List.getD [(1.282 : ℝ), 2.161, 1.282, 20.0, 1.282, 1.282, 1.282] (k - 1).toNat 0
  rcases (k - 1).toNat with _ | _ | _ | _ | _ | _ | _ | n <;> simp [List.getD] <;> norm_num

/-- The time deviation in decibels. -/
noncomputable def timeDev (k : ℤ) (de w z : ℝ) : ℝ := sigmaT k de w z * z

theorem timeDev_eq (k : ℤ) (de w z : ℝ) : timeDev k de w z =
    if z ≤ 0 then climCurve k 5 de * freqCurve k 17 w * z
    else if z ≤ entry k 16 then climCurve k 10 de * freqCurve k 20 w * z
    else climCurve k 10 de * freqCurve k 20 w * entry k 16 +
      climCurve k 10 de * freqCurve k 20 w * entry k 15 * (z - entry k 16) := by
  unfold timeDev sigmaT
  dsimp only
  have h0 := entry16_nonneg k
  rcases lt_trichotomy z 0 with h | h | h
  · rw [if_pos h, if_pos h.le]
  · subst h; rw [if_pos le_rfl]; ring
  · rw [if_neg (not_lt.2 h.le), if_neg (not_le.2 h)]
    split_ifs with c
    · rfl
    · field_simp

theorem timeDev_continuous (k : ℤ) {de w z : X → ℝ} (cd : Continuous de) (cw : Continuous w) (hp : ∀ x, 0 < w x) (cz : Continuous z) :
    Continuous fun x => timeDev k (de x) (w x) (z x) := by
  simp only [timeDev_eq]
  have lo := (climCurve_continuous k 5 cd).mul (freqCurve_continuous k 17 cw hp)
  have up := (climCurve_continuous k 10 cd).mul (freqCurve_continuous k 20 cw hp)
  refine Continuous.if_le (lo.mul cz) (Continuous.if_le (up.mul cz) ?_ cz continuous_const ?_) cz continuous_const ?_
  · exact (up.mul continuous_const).add ((up.mul continuous_const).mul (cz.sub continuous_const))
  · intro x h; rw [h]; ring
  · intro x h
    rw [h, if_pos (entry16_nonneg k)]; ring

theorem sigmaL_continuous (noLoc : Bool) {d dh w : X → ℝ} (cd : Continuous d) (ch : Continuous dh) (cw : Continuous w)
    (pd : ∀ x, 0 ≤ d x) (ph : ∀ x, 0 ≤ dh x) (pw : ∀ x, 0 < w x) : Continuous fun x => sigmaL noLoc (d x) (dh x) (w x) := by
  unfold sigmaL
  cases noLoc
  · simp only [Bool.false_eq_true, if_false]
    have e : Continuous fun x => w x * (dh x * (1 - 0.8 * Real.exp (-d x / 50e3))) := by fun_prop
    refine (continuous_const.mul e).div (e.add continuous_const) fun x => ?_
    have h1 : Real.exp (-d x / 50e3) ≤ 1 :=
      Real.exp_le_one_iff.2 (div_nonpos_of_nonpos_of_nonneg (by linarith [pd x]) (by norm_num))
    have h2 : 0 ≤ 1 - 0.8 * Real.exp (-d x / 50e3) := by
      generalize Real.exp (-d x / 50e3) = y at h1
      norm_num; linarith
    have := mul_nonneg (pw x).le (mul_nonneg (ph x) h2)
    linarith
  · simp only [if_true]; exact continuous_const

theorem situationVar_continuous (noSit : Bool) {de yt yl zc : X → ℝ} (cd : Continuous de) (ct : Continuous yt) (cl : Continuous yl)
    (cc : Continuous zc) : Continuous fun x => situationVar noSit (de x) (yt x) (yl x) (zc x) := by
  unfold situationVar
  have a : Continuous fun x => (if noSit then 0 else (5 + 3 * Real.exp (-de x / 100e3)) ^ 2 : ℝ) := by
    cases noSit <;> simp only [Bool.false_eq_true, if_false, if_true] <;> fun_prop
  refine (a.add ((ct.pow 2).div (continuous_const.add (cc.pow 2)) fun x => ?_)).add
    ((cl.pow 2).div (continuous_const.add (cc.pow 2)) fun x => ?_)
  · have := sq_nonneg (zc x); norm_num; positivity
  · have := sq_nonneg (zc x); positivity

/-- A factor that jumps where the other one vanishes. -/
theorem sqrt_mul_eq (s R z : ℝ) : √(s ^ 2 + R) * z = if 0 ≤ z then √((s * z) ^ 2 + R * z ^ 2) else -√((s * z) ^ 2 + R * z ^ 2) := by
  have e : (s * z) ^ 2 + R * z ^ 2 = (s ^ 2 + R) * z ^ 2 := by ring
  rw [e, Real.sqrt_mul' _ (sq_nonneg z), Real.sqrt_sq_eq_abs]
  split_ifs with h
  · rw [abs_of_nonneg h]
  · rw [abs_of_neg (not_le.1 h)]; ring

theorem sqrt_mul_continuous {s R z T : X → ℝ} (hT : ∀ x, s x * z x = T x) (cT : Continuous T) (cR : Continuous R) (cz : Continuous z) :
    Continuous fun x => √(s x ^ 2 + R x) * z x := by
  have e : (fun x => √(s x ^ 2 + R x) * z x) =
      fun x => if 0 ≤ z x then √(T x ^ 2 + R x * z x ^ 2) else -√(T x ^ 2 + R x * z x ^ 2) := by
    funext x; rw [sqrt_mul_eq, hT]
  rw [e]
  have g : Continuous fun x => √(T x ^ 2 + R x * z x ^ 2) := ((cT.pow 2).add (cR.mul (cz.pow 2))).sqrt
  refine Continuous.if_le g g.neg continuous_const cz fun x h => ?_
  have t : T x = 0 := by rw [← hT, ← h, mul_zero]
  rw [t, ← h]; simp

theorem deviation_continuous (k m : ℤ) (noLoc noSit : Bool) {d dh de w zt zl zc : X → ℝ} (cd : Continuous d) (ch : Continuous dh)
    (ce : Continuous de) (cw : Continuous w) (ct : Continuous zt) (cl : Continuous zl) (cc : Continuous zc)
    (pd : ∀ x, 0 ≤ d x) (ph : ∀ x, 0 ≤ dh x) (pw : ∀ x, 0 < w x) :
    Continuous fun x => deviation k m noLoc noSit (d x) (dh x) (de x) (w x) (zt x) (zl x) (zc x) := by
  unfold deviation
  dsimp only
  have L := sigmaL_continuous noLoc cd ch cw pd ph pw
  have T : ∀ {z : X → ℝ}, Continuous z → Continuous fun x => sigmaT k (de x) (w x) (z x) * z x := fun cz =>
    timeDev_continuous k ce cw pw cz
  by_cases h0 : m = 0
  · simp only [if_pos h0]
    have R : Continuous fun x => sigmaL noLoc (d x) (dh x) (w x) ^ 2 +
        situationVar noSit (de x) (sigmaT k (de x) (w x) (zc x) * zc x) (sigmaL noLoc (d x) (dh x) (w x) * zc x) (zc x) :=
      (L.pow 2).add (situationVar_continuous noSit ce (T cc) (L.mul cc) cc)
    have := sqrt_mul_continuous (fun x => rfl) (T cc) R cc
    simpa only [add_assoc] using this
  simp only [if_neg h0]
  by_cases h1 : m = 1
  · simp only [if_pos h1]
    exact (T ct).add (((L.pow 2).add (situationVar_continuous noSit ce (T ct) (L.mul cc) cc)).sqrt.mul cc)
  simp only [if_neg h1]
  by_cases h2 : m = 2
  · simp only [if_pos h2]
    exact (sqrt_mul_continuous (fun x => rfl) (T ct) (L.pow 2) ct).add
      ((situationVar_continuous noSit ce (T ct) (L.mul ct) cc).sqrt.mul cc)
  simp only [if_neg h2]
  exact ((T ct).add (L.mul cl)).add ((situationVar_continuous noSit ce (T ct) (L.mul cl) cc).sqrt.mul cc)

/-- The quantile is a continuous function of all its parameters together. -/
theorem quantile_continuous (k m : ℤ) (noLoc noSit : Bool) {d dh h₀ h₁ w ar zt zl zc : X → ℝ} (cd : Continuous d) (ch : Continuous dh)
    (c0 : Continuous h₀) (c1 : Continuous h₁) (cw : Continuous w) (ca : Continuous ar) (ct : Continuous zt) (cl : Continuous zl)
    (cc : Continuous zc) (pd : ∀ x, 0 ≤ d x) (ph : ∀ x, 0 ≤ dh x) (pw : ∀ x, 0 < w x) :
    Continuous fun x => quantile k m noLoc noSit (d x) (dh x) (h₀ x) (h₁ x) (w x) (ar x) (zt x) (zl x) (zc x) := by
  unfold quantile
  dsimp only
  have E := effectiveDist_continuous cd c0 c1 cw pw
  have A := (ca.sub (climCurve_continuous k 0 E)).sub (deviation_continuous k m noLoc noSit cd ch E cw ct cl cc pd ph pw)
  obtain ⟨a, ha⟩ : ∃ a : X → ℝ, a = fun x => ar x - climCurve k 0 (effectiveDist (d x) (h₀ x) (h₁ x) (w x)) -
    deviation k m noLoc noSit (d x) (dh x) (effectiveDist (d x) (h₀ x) (h₁ x) (w x)) (w x) (zt x) (zl x) (zc x) := ⟨_, rfl⟩
  have ha' := fun x => congrFun ha x
  replace A : Continuous a := by rw [ha]; exact A
  simp only [← ha']
  have e : (fun x => if a x < 0 then a x * (29 - a x) / (29 - 10 * a x) else a x) =
      fun x => if 0 ≤ a x then a x else min (a x) 0 * (29 - min (a x) 0) / (29 - 10 * min (a x) 0) := by
    funext x
    by_cases h : 0 ≤ a x
    · rw [if_neg (not_lt.2 h), if_pos h]
    · rw [if_pos (not_le.1 h), if_neg h, min_eq_left (not_le.1 h).le]
  rw [e]
  have M : Continuous fun x => min (a x) 0 := A.min continuous_const
  refine Continuous.if_le A ((M.mul (continuous_const.sub M)).div (continuous_const.sub (continuous_const.mul M)) fun x => ?_)
    continuous_const A fun x h => ?_
  · have := min_le_right (a x) 0
    linarith
  · rw [← h]; simp

namespace Link

theorem beyond_continuous (L : Link) : Continuous L.beyond := by
  have c : Continuous L.diffLine := by unfold diffLine; fun_prop
  by_cases h : L.ScatterOk L.d5 ∧ L.a5 < 1000
  · have e : L.beyond = fun d => if d ≤ L.dx then L.diffLine d else L.diffLine L.dx + L.ms * (d - L.dx) := by
      funext d
      unfold beyond
      by_cases hd : d ≤ L.dx
      · rw [if_neg (fun x => absurd x.2.2 (not_lt.2 hd)), if_pos hd]
      · rw [if_pos ⟨h.1, h.2, not_le.1 hd⟩, if_neg hd]
    rw [e]
    refine Continuous.if_le c (by fun_prop) continuous_id continuous_const fun d hd => ?_
    have hd : d = L.dx := hd
    rw [hd]; ring
  · have e : L.beyond = L.diffLine := by
      funext d
      unfold beyond
      rw [if_neg (fun x => h ⟨x.1, x.2.1⟩)]
    rw [e]; exact c

/-- The reference attenuation is a continuous function of the distance. -/
theorem reference_continuousOn (L : Link) : ContinuousOn L.reference (Set.Ioi 0) := by
  rw [continuousOn_iff_continuous_domRestrict]
  have e : (Set.Ioi (0:ℝ)).domRestrict L.reference = fun x : Set.Ioi (0:ℝ) => max 0 (if L.dlsa ≤ x.1 then L.beyond x.1 else L.sight x.1) := by
    funext x
    have hx : (0:ℝ) < x.1 := x.2
    show L.reference x.1 = _
    unfold reference
    congr 1
    by_cases h : L.dlsa ≤ x.1
    · rw [if_neg (fun c => absurd c.2 (not_lt.2 h)), if_pos h]
    · rw [if_pos ⟨hx, not_le.1 h⟩, if_neg h]
  rw [e]
  by_cases hs : 0 < L.dlsa
  · refine continuous_const.max (Continuous.if_le (L.beyond_continuous.comp continuous_subtype_val) ?_ continuous_const continuous_subtype_val
      fun x h => ?_)
    · unfold sight
      have l : Continuous fun x : Set.Ioi (0:ℝ) => Real.log (x.1 / L.dlsa) :=
        (continuous_subtype_val.div_const _).log fun x => (div_pos x.2 hs).ne'
      have s : Continuous fun x : Set.Ioi (0:ℝ) => x.1 := continuous_subtype_val
      fun_prop
    · rw [← h]
      have hdx : L.dlsa ≤ L.dx := (le_max_left _ _).trans (le_max_left _ _)
      unfold beyond sight
      rw [if_neg (fun c => absurd c.2.2 (not_lt.2 hdx)), div_self hs.ne', Real.log_one]; ring
  · have : (fun x : Set.Ioi (0:ℝ) => max 0 (if L.dlsa ≤ x.1 then L.beyond x.1 else L.sight x.1)) = fun x => max 0 (L.beyond x.1) := by
      funext x
      have hx : (0:ℝ) < x.1 := x.2
      rw [if_pos (by linarith)]
    rw [this]
    exact continuous_const.max (L.beyond_continuous.comp continuous_subtype_val)

/-- The loss is a continuous function of the distance and the deviates together. -/
theorem loss_continuousOn (L : Link) (k m : ℤ) (noLoc noSit : Bool) (hw : 0 < L.wn) (hh : 0 ≤ L.dh) :
    ContinuousOn (fun x : ℝ × ℝ × ℝ × ℝ => L.loss k m noLoc noSit x.1 x.2.1 x.2.2.1 x.2.2.2) {x | 0 < x.1} := by
  rw [continuousOn_iff_continuous_domRestrict]
  unfold loss Set.domRestrict
  have r : Continuous fun x : {x : ℝ × ℝ × ℝ × ℝ | 0 < x.1} => L.reference x.1.1 := by
    have := continuousOn_iff_continuous_domRestrict.1 L.reference_continuousOn
    exact this.comp (f := fun x : {x : ℝ × ℝ × ℝ × ℝ | 0 < x.1} => (⟨x.1.1, x.2⟩ : Set.Ioi (0:ℝ)))
      (Continuous.subtype_mk (continuous_fst.comp continuous_subtype_val) _)
  have l : Continuous fun x : {x : ℝ × ℝ × ℝ × ℝ | 0 < x.1} => Real.log (2 * L.wn * x.1.1) := by
    refine Continuous.log (by fun_prop) fun x => ?_
    have : (0:ℝ) < x.1.1 := x.2
    positivity
  refine (continuous_const.mul l).add (quantile_continuous k m noLoc noSit (by fun_prop) continuous_const continuous_const
    continuous_const continuous_const r (by fun_prop) (by fun_prop) (by fun_prop) (fun x => le_of_lt x.2) (fun _ => hh) fun _ => hw)

end Link
end Itm.Spec

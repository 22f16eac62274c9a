import Verif.PyReal
import Mathlib.Tactic.Linarith
import Mathlib.Tactic.Ring
import Mathlib.Tactic.NormNum
import Mathlib.Tactic.Positivity
import Mathlib.Tactic.FieldSimp

/-! Rewriting rules for the Python primitives. -/

namespace Itm

section Monad
variable {β γ : Type}

theorem ok_bind (a : β) (f : β → Py γ) : ((.ok a : Py β) >>= f) = f a := rfl
theorem pure_bind' (a : β) (f : β → Py γ) : ((pure a : Py β) >>= f) = f a := rfl
theorem err_bind (e : PyErr) (f : β → Py γ) : ((.error e : Py β) >>= f) = .error e := rfl
theorem pure_ok (a : β) : (pure a : Py β) = .ok a := rfl

theorem bind_eq_ok {x : Py β} {f : β → Py γ} {c : γ} :
    (x >>= f) = .ok c ↔ ∃ a, x = .ok a ∧ f a = .ok c := by
  cases x with
  | error e => simp [err_bind]
  | ok a => simp [ok_bind]

theorem ok_inj {a b : β} : (.ok a : Py β) = .ok b ↔ a = b := by simp

theorem need_eq_ok {o : Option β} {k : String} {b : β} : need o k = .ok b ↔ o = some b := by
  cases o <;> simp [need]

end Monad

@[simp] theorem rexp (x : ℝ) : PyNum.exp x = Real.exp x := rfl
@[simp] theorem rlog (x : ℝ) : PyNum.log x = Real.log x := rfl
@[simp] theorem rsqrt (x : ℝ) : PyNum.sqrt x = Real.sqrt x := rfl
@[simp] theorem rsin (x : ℝ) : PyNum.sin x = Real.sin x := rfl
@[simp] theorem rcos (x : ℝ) : PyNum.cos x = Real.cos x := rfl
@[simp] theorem rrpow (x y : ℝ) : PyNum.rpow x y = x ^ y := rfl
@[simp] theorem rabs (x : ℝ) : PyNum.abs x = |x| := rfl
@[simp] theorem rfloor (x : ℝ) : PyNum.floor x = ⌊x⌋ := rfl
@[simp] theorem rofInt (i : ℤ) : (PyNum.ofInt i : ℝ) = (i : ℝ) := rfl

/-- Decimal literals of the model are the ordinary decimal literals of ℝ. -/
theorem lit_eq (m : Nat) (s : Bool) (e : Nat) :
    @OfScientific.ofScientific ℝ instPyNumReal.toOfScientific m s e =
      @OfScientific.ofScientific ℝ _ m s e := rfl

@[simp] theorem pyEq_real {x y : ℝ} : pyEq x y ↔ x = y :=
  ⟨fun h => le_antisymm h.1 h.2, fun h => ⟨h.le, h.ge⟩⟩

@[simp] theorem pyMax_real (x y : ℝ) : pyMax x y = max x y := by
  unfold pyMax
  split_ifs with h
  · exact (max_eq_right (le_of_lt h)).symm
  · exact (max_eq_left (not_lt.mp h)).symm

@[simp] theorem pyMin_real (x y : ℝ) : pyMin x y = min x y := by
  unfold pyMin
  split_ifs with h
  · exact (min_eq_right (le_of_lt h)).symm
  · exact (min_eq_left (not_lt.mp h)).symm

@[simp] theorem npow_real (x : ℝ) (n : ℕ) : npow x n = x ^ n := by
  induction n with
  | zero => simp only [npow, pow_zero]; norm_num
  | succ n ih => rw [npow, ih, pow_succ]

theorem pyDiv_eq_ok {x y v : ℝ} : x /! y = .ok v ↔ y ≠ 0 ∧ v = x / y := by
  unfold pyDiv
  split_ifs with h
  · rw [pyEq_real] at h
    have : y = 0 := by rw [h]; norm_num
    simp [this]
  · rw [pyEq_real] at h
    have h' : y ≠ 0 := fun e => h (by rw [e]; norm_num)
    simp [h', eq_comm]

theorem pyDiv_ok {x y : ℝ} (h : y ≠ 0) : x /! y = .ok (x / y) := pyDiv_eq_ok.2 ⟨h, rfl⟩

theorem zero_lit : (0.0 : ℝ) = 0 := by norm_num

theorem mathSqrt_eq_ok {x v : ℝ} : mathSqrt x = .ok v ↔ 0 ≤ x ∧ v = Real.sqrt x := by
  unfold mathSqrt
  have hz : (@OfScientific.ofScientific ℝ instPyNumReal.toOfScientific 0 true 1) = 0 := zero_lit
  rw [hz]
  split_ifs with h
  · simp; intro h'; exact absurd h (not_lt.2 h')
  · simp [not_lt.1 h, eq_comm]

theorem mathSqrt_ok {x : ℝ} (h : 0 ≤ x) : mathSqrt x = .ok (Real.sqrt x) := mathSqrt_eq_ok.2 ⟨h, rfl⟩

theorem npLog_eq_ok {x v : ℝ} : npLog x = .ok v ↔ 0 < x ∧ v = Real.log x := by
  unfold npLog
  have hz : (@OfScientific.ofScientific ℝ instPyNumReal.toOfScientific 0 true 1) = 0 := zero_lit
  rw [hz]
  split_ifs with h
  · simp [h, eq_comm]
  · simp [h]

theorem npLog_ok {x : ℝ} (h : 0 < x) : npLog x = .ok (Real.log x) := npLog_eq_ok.2 ⟨h, rfl⟩

theorem pyPow_eq_ok {x y v : ℝ} :
    pyPow x y = .ok v ↔ 0 ≤ x ∧ ¬ (x = 0 ∧ y < 0) ∧ v = x ^ y := by
  unfold pyPow
  have hz : (@OfScientific.ofScientific ℝ instPyNumReal.toOfScientific 0 true 1) = 0 := zero_lit
  rw [hz]
  split_ifs with h h2
  · simp; intro h'; exact absurd h (not_lt.2 h')
  · rw [pyEq_real] at h2; simp [h2]
  · rw [pyEq_real] at h2; simp [not_lt.1 h, h2, eq_comm]

theorem pyPow_ok {x y : ℝ} (h : 0 ≤ x) (h2 : ¬ (x = 0 ∧ y < 0)) : pyPow x y = .ok (x ^ y) :=
  pyPow_eq_ok.2 ⟨h, h2, rfl⟩

section Get
variable {β : Type}

theorem pyGet_nonneg {l : List β} {i : ℤ} (h0 : 0 ≤ i) (h1 : i < l.length) :
    pyGet l i = .ok (l[i.toNat]'(by omega)) := by
  unfold pyGet
  have : ¬ i < 0 := by omega
  simp only [this, if_false]
  rw [List.getElem?_eq_getElem (by omega)]

theorem pyGet_neg {l : List β} {i : ℤ} (h0 : i < 0) (h1 : 0 ≤ i + l.length) :
    pyGet l i = .ok (l[(i + l.length).toNat]'(by omega)) := by
  unfold pyGet
  have : ¬ i + (l.length : ℤ) < 0 := by omega
  simp only [h0, if_true, this, if_false]
  rw [List.getElem?_eq_getElem (by omega)]

theorem pyGet_out {l : List β} {i : ℤ} (h : i < -(l.length : ℤ) ∨ (l.length : ℤ) ≤ i) :
    pyGet l i = .error .indexError := by
  unfold pyGet
  rcases h with h | h
  · have h1 : i < 0 := by omega
    have h2 : i + (l.length : ℤ) < 0 := by omega
    simp only [h1, if_true, h2]
  · have h1 : ¬ i < 0 := by omega
    simp only [h1, if_false]
    rw [List.getElem?_eq_none (by omega)]

end Get

end Itm

import Verif.Lemmas.Frame
import Verif.Lemmas.AvarFrame

/-! Relating two Python calls: both raise the same exception, or both succeed with related results.
Holds for every arithmetic. -/

namespace Itm

/-- Same exception, or related results. -/
def ExRel {β γ : Type} (R : β → γ → Prop) : Py β → Py γ → Prop
  | .ok a, .ok b => R a b
  | .error e, .error e' => e = e'
  | _, _ => False

section
variable {β γ δ ε : Type}

theorem ExRel.bind {R : β → γ → Prop} {S : δ → ε → Prop} {x : Py β} {y : Py γ} {f : β → Py δ} {g : γ → Py ε}
    (h : ExRel R x y) (hf : ∀ a b, R a b → ExRel S (f a) (g b)) : ExRel S (x >>= f) (y >>= g) := by
  match x, y, h with
  | .ok a, .ok b, h => exact hf a b h
  | .error e, .error e', h => exact h

theorem ExRel.refl (x : Py β) : ExRel Eq x x := by cases x <;> exact rfl

theorem ExRel.bind_same {S : δ → ε → Prop} (x : Py β) {f : β → Py δ} {g : β → Py ε}
    (hf : ∀ a, x = .ok a → ExRel S (f a) (g a)) : ExRel S (x >>= f) (x >>= g) := by
  match x, hf with
  | .ok a, hf => exact hf a rfl
  | .error e, _ => exact rfl

theorem ExRel.mono {R S : β → γ → Prop} {x : Py β} {y : Py γ} (h : ExRel R x y) (hRS : ∀ a b, x = .ok a → y = .ok b → R a b → S a b) :
    ExRel S x y := by
  match x, y, h with
  | .ok a, .ok b, h => exact hRS a b rfl rfl h
  | .error e, .error e', h => exact h

theorem ExRel.pure {R : β → γ → Prop} {a : β} {b : γ} (h : R a b) : ExRel R (Pure.pure a : Py β) (Pure.pure b : Py γ) := h

theorem ExRel.map_eq {R : β → γ → Prop} {x : Py β} {y : Py γ} {f : β → δ} {g : γ → δ} (h : ExRel R x y)
    (hf : ∀ a b, R a b → f a = g b) : f <$> x = g <$> y := by
  match x, y, h with
  | .ok a, .ok b, h => exact congrArg Except.ok (hf a b h)
  | .error e, .error e', h => exact congrArg Except.error h

end

variable {α : Type} [PyNum α]

/-- A number type in which any two numbers compare (no `nan`). -/
structure Ordered (α : Type) [PyNum α] : Prop where
  lt_or_le : ∀ x y : α, x < y ∨ y ≤ x
  le_of_lt : ∀ x y : α, x < y → x ≤ y

theorem ordered_real : Ordered ℝ := ⟨lt_or_ge, fun _ _ h => h.le⟩

/-- What `avar` reads when its caches are up to date. -/
def ansKey (p : PropSt α) : Option Int × Option Int × α × Pair α × α × α × Option α :=
  (p.klim.map fixKlim, p.mdvar, p.wn, p.he, p.dist, p.dh, p.aref)

theorem freshAns_congr {p q : PropSt α} (h : ansKey p = ansKey q) (zt zl zc : α) :
    freshAns zt zl zc p = freshAns zt zl zc q := by
  simp only [ansKey, Prod.mk.injEq] at h
  obtain ⟨h1, h2, h3, h4, h5, h6, h7⟩ := h
  unfold freshAns
  rw [h2, h3, h4, h5, h6, h7]
  cases hp : p.klim with
  | none =>
    rw [hp] at h1
    cases hq : q.klim with
    | none => rfl
    | some k => rw [hq] at h1; exact absurd h1 (by simp)
  | some k =>
    rw [hp] at h1
    cases hq : q.klim with
    | none => rw [hq] at h1; exact absurd h1 (by simp)
    | some k' =>
      rw [hq] at h1
      have : fixKlim k = fixKlim k' := by simpa using h1
      simp only [need_some, ok_bind, this]

/-- The answer of `avar` does not change what it reads. -/
theorem avar_key {p q : PropSt α} {a zt zl zc : α} (h : CacheInv p) (hq : avar zt zl zc p = .ok (a, q)) :
    CacheInv q ∧ ansKey q = ansKey p ∧ AvarFrame p q ∧ q.lvar ≤ 0 := by
  obtain ⟨hi, c, m, g, x, v, kw, lv, _, hlv, rfl⟩ := avar_state h hq
  refine ⟨hi, ?_, ⟨_, _, _, _, _, _, _, _, rfl⟩, hlv⟩
  simp only [ansKey]
  cases p.klim with
  | none => rfl
  | some k => simp only [Option.map_some, fixKlim_idem]

theorem avar_ans {p q : PropSt α} {a zt zl zc : α} (h : CacheInv p) (hq : avar zt zl zc p = .ok (a, q)) :
    freshAns zt zl zc p = .ok a := by
  rw [← avar_value h, hq]; rfl

theorem ans_avar {p : PropSt α} {a zt zl zc : α} (h : CacheInv p) (hq : freshAns zt zl zc p = .ok a) :
    ∃ q, avar zt zl zc p = .ok (a, q) := by
  rw [← avar_value h] at hq
  cases ha : avar zt zl zc p with
  | error e => rw [ha] at hq; exact absurd hq (by simp)
  | ok x =>
    rw [ha] at hq
    obtain ⟨b, q⟩ := x
    have : b = a := by
      have : (Except.ok b : Py α) = .ok a := hq
      exact ok_inj.1 this
    exact ⟨q, by rw [this]⟩

/-- Two dictionaries on which `avar` answers alike. -/
structure AnsRel (p q : PropSt α) : Prop where
  left : CacheInv p
  right : CacheInv q
  key : ansKey p = ansKey q

theorem avar_rel {p q : PropSt α} (h : AnsRel p q) (zt zl zc : α) :
    ExRel (fun x y => x.1 = y.1 ∧ AnsRel x.2 y.2 ∧ AvarFrame p x.2 ∧ AvarFrame q y.2 ∧ x.2.lvar ≤ 0 ∧ y.2.lvar ≤ 0)
      (avar zt zl zc p) (avar zt zl zc q) := by
  have e := freshAns_congr h.key zt zl zc
  rw [← avar_value h.left, ← avar_value h.right] at e
  cases hp : avar zt zl zc p with
  | error e1 =>
    cases hq : avar zt zl zc q with
    | error e2 => rw [hp, hq] at e; exact Except.error.inj e
    | ok y => rw [hp, hq] at e; exact absurd e (by simp)
  | ok x =>
    cases hq : avar zt zl zc q with
    | error e2 => rw [hp, hq] at e; exact absurd e (by simp)
    | ok y =>
      rw [hp, hq] at e
      obtain ⟨a, p'⟩ := x
      obtain ⟨b, q'⟩ := y
      have hab : a = b := ok_inj.1 (show (Except.ok a : Py α) = .ok b from e)
      obtain ⟨i1, k1, f1, l1⟩ := avar_key h.left hp
      obtain ⟨i2, k2, f2, l2⟩ := avar_key h.right hq
      exact ⟨hab, ⟨i1, i2, by rw [k1, k2, h.key]⟩, f1, f2, l1, l2⟩

end Itm

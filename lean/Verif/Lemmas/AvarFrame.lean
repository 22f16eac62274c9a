import Verif.Lemmas.AvarState

/-! What `avar` may change in the dictionary, for every dictionary. -/

namespace Itm
variable {α : Type} [PyNum α]

/-- `q` is `p` except for the keys `avar` computes, the repaired climate code, `lvar` and `kwx`. -/
def AvarFrame (p q : PropSt α) : Prop :=
  ∃ klim kwx lvar clim vmode fgain dexa varc,
    q = { p with klim := klim, kwx := kwx, lvar := lvar, clim := clim, vmode := vmode, fgain := fgain, dexa := dexa, varc := varc }

theorem AvarFrame.refl (p : PropSt α) : AvarFrame p p :=
  ⟨p.klim, p.kwx, p.lvar, p.clim, p.vmode, p.fgain, p.dexa, p.varc, rfl⟩

theorem AvarFrame.trans {p q r : PropSt α} (h1 : AvarFrame p q) (h2 : AvarFrame q r) : AvarFrame p r := by
  obtain ⟨a, b, c, d, e, f, g, h, rfl⟩ := h1
  obtain ⟨a', b', c', d', e', f', g', h', rfl⟩ := h2
  exact ⟨a', b', c', d', e', f', g', h', rfl⟩

/-- Climate stage. -/
theorem avarClimate_ok {p q : PropSt α} (h : avarClimate p = .ok q) :
    AvarFrame p q ∧ q.lvar = p.lvar ∧
      (4 < p.lvar → ∃ k c, p.klim = some k ∧ pyGet climates (fixKlim k - 1) = .ok c ∧
        q = { p with klim := some (fixKlim k), clim := some c, kwx := if k ≤ 0 ∨ 7 < k then max p.kwx 2 else p.kwx }) ∧
      (¬ 4 < p.lvar → q = p) := by
  unfold avarClimate at h
  by_cases h4 : 4 < p.lvar
  · rw [if_pos h4] at h
    obtain ⟨k, hk, h⟩ := bind_eq_ok.1 h
    have hk' := need_eq_ok.1 hk
    by_cases hb : k ≤ 0 ∨ 7 < k
    · simp only [hb, if_true, need_some, ok_bind] at h
      obtain ⟨c, hc, h⟩ := bind_eq_ok.1 h
      rw [pure_ok, ok_inj] at h; subst h
      refine ⟨⟨_, _, p.lvar, _, p.vmode, p.fgain, p.dexa, p.varc, rfl⟩, rfl, fun _ => ⟨k, c, hk', ?_, ?_⟩, fun h' => absurd h4 h'⟩
      · simp only [fixKlim, hb, if_true]; exact hc
      · simp only [fixKlim, hb, if_true]
    · simp only [hb, if_false, hk, ok_bind] at h
      obtain ⟨c, hc, h⟩ := bind_eq_ok.1 h
      rw [pure_ok, ok_inj] at h; subst h
      refine ⟨⟨p.klim, p.kwx, p.lvar, _, p.vmode, p.fgain, p.dexa, p.varc, rfl⟩, rfl, fun _ => ⟨k, c, hk', ?_, ?_⟩, fun h' => absurd h4 h'⟩
      · simp only [fixKlim, hb, if_false]; exact hc
      · simp only [fixKlim, hb, if_false, ← hk']
  · rw [if_neg h4, pure_ok, ok_inj] at h; subst h
    exact ⟨AvarFrame.refl p, rfl, fun h' => absurd h' h4, fun _ => rfl⟩

/-- Mode stage. -/
theorem avarMode_ok {p q : PropSt α} (h : avarMode p = .ok q) :
    AvarFrame p q ∧ q.lvar = p.lvar ∧ q.klim = p.klim ∧ q.clim = p.clim ∧
      (3 < p.lvar → ∃ md, p.mdvar = some md ∧
        q = { p with vmode := some (decodeMode md).1, kwx := if (decodeMode md).2 = true then max p.kwx 2 else p.kwx }) ∧
      (¬ 3 < p.lvar → q = p) := by
  unfold avarMode at h
  by_cases h4 : 3 < p.lvar
  · rw [if_pos h4] at h
    obtain ⟨k, hk, h⟩ := bind_eq_ok.1 h
    have hk' := need_eq_ok.1 hk
    have h : (Except.ok { p with vmode := some (decodeMode k).1, kwx := if (decodeMode k).2 = true then max p.kwx 2 else p.kwx } : Py (PropSt α)) = .ok q := h
    rw [ok_inj] at h; subst h
    exact ⟨⟨p.klim, _, p.lvar, p.clim, _, p.fgain, p.dexa, p.varc, rfl⟩, rfl, rfl, rfl, fun _ => ⟨k, hk', rfl⟩, fun h' => absurd h4 h'⟩
  · rw [if_neg h4, pure_ok, ok_inj] at h; subst h
    exact ⟨AvarFrame.refl p, rfl, rfl, rfl, fun h' => absurd h' h4, fun _ => rfl⟩

theorem avarFreq_ok {p q : PropSt α} (h : avarFreq p = .ok q) :
    ∃ g, q = { p with fgain := g } := by
  unfold avarFreq at h
  split_ifs at h
  · obtain ⟨c, _, h⟩ := bind_eq_ok.1 h
    obtain ⟨g, _, h⟩ := bind_eq_ok.1 h
    rw [pure_ok, ok_inj] at h; subst h
    exact ⟨some g, rfl⟩
  · rw [pure_ok, ok_inj] at h; subst h; exact ⟨p.fgain, rfl⟩

theorem avarDexa_ok {p q : PropSt α} (h : avarDexa p = .ok q) :
    ∃ g, q = { p with dexa := g } := by
  unfold avarDexa at h
  split_ifs at h
  · obtain ⟨c, _, h⟩ := bind_eq_ok.1 h
    rw [pure_ok, ok_inj] at h; subst h
    exact ⟨some c, rfl⟩
  · rw [pure_ok, ok_inj] at h; subst h; exact ⟨p.dexa, rfl⟩

theorem avarDist_ok {p q : PropSt α} (h : avarDist p = .ok q) :
    ∃ v, q = { p with varc := some v, lvar := 0 } := by
  unfold avarDist at h
  obtain ⟨_, _, h⟩ := bind_eq_ok.1 h
  obtain ⟨_, _, h⟩ := bind_eq_ok.1 h
  obtain ⟨_, _, h⟩ := bind_eq_ok.1 h
  obtain ⟨_, _, h⟩ := bind_eq_ok.1 h
  obtain ⟨v, _, h⟩ := bind_eq_ok.1 h
  rw [pure_ok, ok_inj] at h; subst h
  exact ⟨v, rfl⟩

/-- All stages. -/
theorem avarSetup_ok {p q : PropSt α} (h : avarSetup p = .ok q) :
    AvarFrame p q ∧ q.lvar = (if 0 < p.lvar then 0 else p.lvar) := by
  unfold avarSetup at h
  split_ifs at h with h0
  · obtain ⟨p1, h1, h⟩ := bind_eq_ok.1 h
    obtain ⟨p2, h2, h⟩ := bind_eq_ok.1 h
    obtain ⟨p3, h3, h⟩ := bind_eq_ok.1 h
    obtain ⟨p4, h4, h⟩ := bind_eq_ok.1 h
    obtain ⟨g, rfl⟩ := avarFreq_ok h3
    obtain ⟨x, rfl⟩ := avarDexa_ok h4
    obtain ⟨v, rfl⟩ := avarDist_ok h
    have hf := (avarClimate_ok h1).1.trans (avarMode_ok h2).1
    refine ⟨hf.trans ⟨p2.klim, p2.kwx, 0, p2.clim, p2.vmode, g, x, some v, rfl⟩, ?_⟩
    rw [if_pos h0]
  · rw [pure_ok, ok_inj] at h; subst h
    exact ⟨AvarFrame.refl p, (if_neg h0).symm⟩

/-- All stages when everything is recomputed. -/
theorem avarSetup_all {p q : PropSt α} (h : avarSetup p = .ok q) (h5 : 4 < p.lvar) :
    ∃ k c md, p.klim = some k ∧ p.mdvar = some md ∧ pyGet climates (fixKlim k - 1) = .ok c ∧
      q.klim = some (fixKlim k) ∧ q.clim = some c ∧ q.vmode = some (decodeMode md).1 ∧
      q.kwx = if (k ≤ 0 ∨ 7 < k) ∨ (decodeMode md).2 = true then max p.kwx 2 else p.kwx := by
  unfold avarSetup at h
  rw [if_pos (by omega)] at h
  obtain ⟨p1, h1, h⟩ := bind_eq_ok.1 h
  obtain ⟨p2, h2, h⟩ := bind_eq_ok.1 h
  obtain ⟨p3, h3, h⟩ := bind_eq_ok.1 h
  obtain ⟨p4, h4, h⟩ := bind_eq_ok.1 h
  obtain ⟨g, rfl⟩ := avarFreq_ok h3
  obtain ⟨x, rfl⟩ := avarDexa_ok h4
  obtain ⟨v, rfl⟩ := avarDist_ok h
  obtain ⟨k, c, hk, hc, rfl⟩ := (avarClimate_ok h1).2.2.1 h5
  obtain ⟨md, hmd, rfl⟩ := (avarMode_ok h2).2.2.2.2.1 (by simp only; omega)
  refine ⟨k, c, md, hk, hmd, hc, rfl, rfl, rfl, ?_⟩
  simp only
  split_ifs <;> first | rfl | omega | (exfalso; tauto)

theorem avar_ok {p q : PropSt α} {a zt zl zc : α} (h : avar zt zl zc p = .ok (a, q)) :
    ∃ r m c v ar, avarSetup p = .ok r ∧ r.vmode = some m ∧ r.clim = some c ∧ r.varc = some v ∧ r.aref = some ar ∧
      q = { r with kwx := avarKwx m.kdv zt zl zc r.kwx } ∧ avarQuantile m.kdv c.zd v ar zt zl zc = .ok a := by
  unfold avar at h
  obtain ⟨r, hr, h⟩ := bind_eq_ok.1 h
  obtain ⟨m, hm, h⟩ := bind_eq_ok.1 h
  obtain ⟨c, hc, h⟩ := bind_eq_ok.1 h
  obtain ⟨v, hv, h⟩ := bind_eq_ok.1 h
  obtain ⟨ar, har, h⟩ := bind_eq_ok.1 h
  obtain ⟨b, hb, h⟩ := bind_eq_ok.1 h
  rw [pure_ok, ok_inj] at h
  obtain ⟨rfl, rfl⟩ := Prod.mk.inj h
  exact ⟨r, m, c, v, ar, hr, need_eq_ok.1 hm, need_eq_ok.1 hc, need_eq_ok.1 hv, need_eq_ok.1 har, rfl, hb⟩

theorem avarKwx_idem (kdv : Int) (zt zl zc : α) (k : Int) :
    avarKwx kdv zt zl zc (avarKwx kdv zt zl zc k) = avarKwx kdv zt zl zc k := by
  unfold avarKwx
  simp only
  split_ifs <;> omega

theorem avarKwx_ge (kdv : Int) (zt zl zc : α) (k : Int) :
    k ≤ avarKwx kdv zt zl zc k ∧ (avarKwx kdv zt zl zc k = k ∨ avarKwx kdv zt zl zc k = max k 1) := by
  unfold avarKwx
  simp only
  split_ifs <;> constructor <;> omega

end Itm

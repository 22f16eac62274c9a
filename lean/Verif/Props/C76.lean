import Verif.Lemmas.DevLip
import Verif.Lemmas.AvarRound
import Verif.Spec.RoundLink
import Verif.Props.C09
import Verif.Props.C75

/-! C76: the whole of `avar` in rounding arithmetic. -/

namespace Itm.Props

open Itm Spec
variable {α : Type} [PyNum α]

theorem fresh_round {R : Rounding α} {p : PropSt α} {p' : PropSt ℝ} (hs : SameValues R p p') (hz : StatSized p') :
    ∃ md c g x v c' g' x' v', p.mdvar = some md ∧ freshSetup p = .ok (c, (decodeMode md).1, g, x, v) ∧
      freshSetup p' = .ok (c', (decodeMode md).1, g', x', v') ∧
      VarSized R c.zd v ∧ VarClose (R.val c.zd) (valC R v) c'.zd v' ∧ VarGood c'.zd v' ∧
      ((decodeMode md).1.ws = false → 24 ≤ R.val v.vs0) := by
  obtain ⟨k, hk, hk'⟩ := hs.klim
  obtain ⟨md, hm, hm'⟩ := hs.mdvar
  obtain ⟨fw, ew⟩ := hs.wn
  obtain ⟨fd, ed⟩ := hs.dist
  obtain ⟨fh, eh⟩ := hs.dh
  obtain ⟨f0, e0⟩ := hs.he0
  obtain ⟨f1, e1⟩ := hs.he1
  obtain ⟨w1, w2⟩ := hz.wn
  obtain ⟨d1, d2⟩ := hz.dist
  obtain ⟨h1, h2⟩ := hz.dh
  have b0 := hz.he0
  have b1 := hz.he1
  rw [ew] at w1 w2
  rw [ed] at d1 d2
  rw [eh] at h1 h2
  rw [e0] at b0
  rw [e1] at b1
  obtain ⟨r1, r7⟩ := fixKlim_range k
  obtain ⟨c, c', ec, ec', hc⟩ := climate_round R r1 r7
  have hcg := climGood ec'
  obtain ⟨g, g', eg, eg', nm, np, -, g9⟩ := freqGain_round hc fw w1 w2
  obtain ⟨x, x', ex, ex', fx, x1, x2, x3⟩ := dexa_round fw w1 w2 f0 f1 e0 e1 b0 b1
  obtain ⟨v, v', ev, ev', s, cl, v24⟩ := varCoef_round hc hcg (decodeMode md).1 nm np g9 fx x1 x2 x3 fd d1 d2 fh h1 h2 fw w1 w2
  obtain ⟨-, gm0, gp0⟩ := freqGain_pos hcg eg'
  refine ⟨md, c, g, x, v, c', g', x', v', hm, ?_, ?_, s, cl, (varCoef_good hcg gm0 gp0 ev').1, v24⟩
  · unfold freshSetup
    rw [hk, need_some, ok_bind, ec, ok_bind, hm, need_some, ok_bind]
    dsimp only
    rw [eg, ok_bind, ex, ok_bind, ev, ok_bind, pure_ok]
  · unfold freshSetup
    rw [hk', need_some, ok_bind, ec', ok_bind, hm', need_some, ok_bind]
    dsimp only
    rw [ew, eg', ok_bind, ex', ok_bind, ed, eh, ev', ok_bind, pure_ok]

/-- The answer of `avar` when its set-up and quantile succeed. -/
theorem avar_of_fresh {p : PropSt α} (hi : CacheInv p) {c : Climate α} {m : VarMode} {g : FreqGain α} {x : α} {v : VarC α}
    {ar a zt zl zc : α} (hf : freshSetup p = .ok (c, m, g, x, v)) (ha : p.aref = some ar)
    (h : avarQuantile m.kdv c.zd v ar zt zl zc = .ok a) : ∃ q, avar zt zl zc p = .ok (a, q) := by
  have hv := avar_value hi zt zl zc
  rw [freshAns_eq, hf, ok_bind] at hv
  dsimp only at hv
  rw [ha, need_some, ok_bind, h] at hv
  cases e : avar zt zl zc p with
  | error _ => rw [e] at hv; cases hv
  | ok r =>
    obtain ⟨b, q⟩ := r
    rw [e] at hv
    have : b = a := ok_inj.1 hv
    exact ⟨q, by rw [this]⟩

theorem fresh_of_avar {p q : PropSt α} (hi : CacheInv p) {c : Climate α} {m : VarMode} {g : FreqGain α} {x : α} {v : VarC α}
    {ar a zt zl zc : α} (hf : freshSetup p = .ok (c, m, g, x, v)) (ha : p.aref = some ar)
    (h : avar zt zl zc p = .ok (a, q)) : avarQuantile m.kdv c.zd v ar zt zl zc = .ok a := by
  have hv := avar_value hi zt zl zc
  rw [freshAns_eq, hf, ok_bind] at hv
  dsimp only at hv
  rw [ha, need_some, ok_bind, h] at hv
  exact hv.symm

theorem avar_round (R : Rounding α) {p : PropSt α} {p' : PropSt ℝ} (hi : CacheInv p) (hi' : CacheInv p')
    (hs : SameValues R p p') (hz : StatSized p') (zt zl zc : α) (ht : R.fin zt) (ht' : |R.val zt| ≤ 10)
    (hl : R.fin zl) (hl' : |R.val zl| ≤ 10) (hc : R.fin zc) (hc' : |R.val zc| ≤ 10) :
    ∃ a q b q', avar zt zl zc p = .ok (a, q) ∧ R.fin a ∧ avar (R.val zt) (R.val zl) (R.val zc) p' = .ok (b, q') ∧
      |R.val a - b| ≤ 4e-6 ∧ |R.val a| ≤ 1.8e5 := by
  obtain ⟨md, c, g, x, v, c', g', x', v', -, hf, hf', s, cl, gd, -⟩ := fresh_round hs hz
  obtain ⟨ar, ea, fa, ea'⟩ := hs.aref
  have ba := hz.aref _ ea'
  obtain ⟨a, eq, na, ab⟩ := avarQuantile_round s (decodeMode md).1.kdv fa ba ht ht' hl hl' hc hc'
  obtain ⟨q, hq⟩ := avar_of_fresh hi hf ea eq
  obtain ⟨q', hq'⟩ := avar_of_fresh hi' hf' ea'
    (avarQuantile_ok (by have := s.zdb.1; have := abs_le.1 cl.zd; norm_num at this; linarith [this.1]) gd.vs0 (decodeMode md).1.kdv (R.val ar) (R.val zt) (R.val zl) (R.val zc))
  refine ⟨a, q, _, q', hq, na.fin, hq', ?_, ab⟩
  have h1 := na.err
  have h2 := devR_close s.zdb.1 s.sgtp s.vs0.1 cl gd (decodeMode md).1.kdv ht' hl' hc'
  have h3 := cl.vmd
  have h4 := softR_lip (R.val ar - R.val v.vmd - devR (decodeMode md).1.kdv (R.val c.zd) (valC R v) (R.val zt) (R.val zl) (R.val zc))
    (R.val ar - v'.vmd - devR (decodeMode md).1.kdv c'.zd v' (R.val zt) (R.val zl) (R.val zc))
  change |R.val v.vmd - v'.vmd| ≤ _ at h3
  generalize devR (decodeMode md).1.kdv (R.val c.zd) (valC R v) (R.val zt) (R.val zl) (R.val zc) = D at *
  generalize devR (decodeMode md).1.kdv c'.zd v' (R.val zt) (R.val zl) (R.val zc) = D' at *
  generalize softR (R.val ar - R.val v.vmd - D) = S at *
  generalize softR (R.val ar - v'.vmd - D') = S' at *
  have h5 : |R.val ar - R.val v.vmd - D - (R.val ar - v'.vmd - D')| ≤ 3.1e-6 := by
    rw [abs_le] at h2 h3 ⊢
    constructor <;> norm_num at h2 h3 ⊢ <;> linarith [h2.1, h2.2, h3.1, h3.2]
  have h6 := (h4.trans h5)
  rw [abs_le] at h1 h6 ⊢
  constructor <;> norm_num at h1 h6 ⊢ <;> linarith [h1.1, h1.2, h6.1, h6.2]

/-- In any arithmetic that rounds like doubles do, `avar` answers, and its answer is within `4e-6` dB of what exact arithmetic gives for
the same climate, mode, wave number, distance, terrain irregularity, effective heights, reference attenuation and deviates: from the
climate constants on to the answer, whatever calls came before on either side. -/
theorem C76_avar (R : Rounding α) {p₀ p : PropSt α} {p₀' p' : PropSt ℝ} (h5 : p₀.lvar = 5) (hr : Reach p₀ p) (h5' : p₀'.lvar = 5)
    (hr' : Reach p₀' p') (hs : SameValues R p p') (hz : StatSized p') (zt zl zc : α) (ht : R.fin zt) (ht' : |R.val zt| ≤ 10)
    (hl : R.fin zl) (hl' : |R.val zl| ≤ 10) (hc : R.fin zc) (hc' : |R.val zc| ≤ 10) :
    ∃ a q b q', avar zt zl zc p = .ok (a, q) ∧ R.fin a ∧ avar (R.val zt) (R.val zl) (R.val zc) p' = .ok (b, q') ∧
      |R.val a - b| ≤ 4e-6 := by
  obtain ⟨a, q, b, q', h1, h2, h3, h4, -⟩ := avar_round R (cacheInv_reach (by omega) hr) (cacheInv_reach (by omega) hr') hs hz zt zl zc
    ht ht' hl hl' hc hc'
  exact ⟨a, q, b, q', h1, h2, h3, h4⟩

theorem exact_dict {R : Rounding α} {p : PropSt α} (h : StatRange R p) (p₀ : PropSt ℝ) :
    ∃ p' : PropSt ℝ, p'.lvar = 5 ∧ p'.mdvar = p.mdvar ∧ SameValues R p p' ∧ StatSized p' := by
  obtain ⟨k, hk⟩ := h.klim
  obtain ⟨m, hm⟩ := h.mdvar
  obtain ⟨a, ha, fa, ba⟩ := h.aref
  refine ⟨{ p₀ with lvar := 5, klim := p.klim, mdvar := p.mdvar, wn := R.val p.wn, dist := R.val p.dist, dh := R.val p.dh,
                    he := ⟨R.val p.he.x0, R.val p.he.x1⟩, aref := some (R.val a) }, rfl, rfl, ?_, ?_⟩
  · exact ⟨⟨k, hk, hk⟩, ⟨m, hm, hm⟩, ⟨h.wn.1, rfl⟩, ⟨h.dist.1, rfl⟩, ⟨h.dh.1, rfl⟩, ⟨h.he0.1, rfl⟩, ⟨h.he1.1, rfl⟩, a, ha, fa, rfl⟩
  · refine ⟨h.wn.2, h.dist.2, h.dh.2, h.he0.2, h.he1.2, fun b hb => ?_⟩
    obtain rfl := Option.some.inj hb
    exact ba

theorem conf_round (R : Rounding α) {p q q' : PropSt α} (hi : CacheInv p)
    (hs : StatRange R p) {md : ℤ} (hmd : p.mdvar = some md) (hon : md ∈ [1, 2, 3, 11, 12, 13])
    {zt zl zc zc' a a' : α} (ht : R.fin zt) (ht' : |R.val zt| ≤ 10)
    (hl : R.fin zl) (hl' : |R.val zl| ≤ 10) (hc : R.fin zc) (hc' : |R.val zc| ≤ 10) (hd : R.fin zc') (hd' : |R.val zc'| ≤ 10)
    (hlt : R.val zc' + 0.003 ≤ R.val zc) (h : avar zt zl zc p = .ok (a, q)) (h' : avar zt zl zc' p = .ok (a', q')) :
    R.val a + 1e-8 ≤ R.val a' := by
  obtain ⟨p', -, -, hs', hz⟩ := exact_dict hs demo
  obtain ⟨m, c, g, x, v, c', g', x', v', hm, hf, hf', s, cl, gd, v24⟩ := fresh_round hs' hz
  rw [hmd] at hm
  obtain rfl := Option.some.inj hm
  obtain ⟨ar, ea, fa, ba⟩ := hs.aref
  have hk : (decodeMode md).1.kdv ≠ 0 ∧ (decodeMode md).1.ws = false := by
    simp only [List.mem_cons, List.not_mem_nil, or_false] at hon
    rcases hon with rfl | rfl | rfl | rfl | rfl | rfl <;> decide
  exact C75_confidence R _ hk.1 c.zd v s (by linarith [v24 hk.2]) ar zt zl zc zc' a a' fa ba ht ht' hl hl' hc hc' hd hd' hlt
    (fresh_of_avar hi hf ea h) (fresh_of_avar hi hf ea h')

/-- Rounding included, more confidence means strictly more loss: with the situation variability on and outside single-message mode,
confidence deviates at least `0.003` apart, as those of different integer percentages are, give attenuations in strict order, at least
`1e-8` dB apart. -/
theorem C76_confidence (R : Rounding α) {p₀ p q q' : PropSt α} (h5 : p₀.lvar = 5) (hr : Reach p₀ p)
    (hs : StatRange R p) {md : ℤ} (hmd : p.mdvar = some md) (hon : md ∈ [1, 2, 3, 11, 12, 13])
    {zt zl zc zc' a a' : α} (ht : R.fin zt) (ht' : |R.val zt| ≤ 10)
    (hl : R.fin zl) (hl' : |R.val zl| ≤ 10) (hc : R.fin zc) (hc' : |R.val zc| ≤ 10) (hd : R.fin zc') (hd' : |R.val zc'| ≤ 10)
    (hlt : R.val zc' + 0.003 ≤ R.val zc) (h : avar zt zl zc p = .ok (a, q)) (h' : avar zt zl zc' p = .ok (a', q')) :
    R.val a + 1e-8 ≤ R.val a' :=
  conf_round R (cacheInv_reach (by omega) hr) hs hmd hon ht ht' hl hl' hc hc' hd hd' hlt h h'

theorem time_round (R : Rounding α) {p q q' : PropSt α} (hi : CacheInv p)
    (hs : StatRange R p) {md : ℤ} (hmd : p.mdvar = some md) (hon : md ∈ [1, 2, 3, 11, 12, 13, 21, 22, 23, 31, 32, 33])
    {zt zt' zl zc a a' : α} (ht : R.fin zt) (ht' : |R.val zt| ≤ 10)
    (hu : R.fin zt') (hu' : |R.val zt'| ≤ 10) (hl : R.fin zl) (hl' : |R.val zl| ≤ 10) (hc : R.fin zc) (hc' : |R.val zc| ≤ 10)
    (hle : R.val zt ≤ R.val zt') (h : avar zt zl zc p = .ok (a, q)) (h' : avar zt' zl zc p = .ok (a', q')) :
    R.val a' ≤ R.val a + 8e-6 := by
  obtain ⟨p', h5', e', hs', hz⟩ := exact_dict hs demo
  obtain ⟨x, _, b, _, e, -, e1, h1, -⟩ := avar_round R hi (cacheInv_of_five (by omega : 5 ≤ p'.lvar)) hs' hz zt zl zc ht ht' hl hl' hc hc'
  obtain ⟨y, _, b', _, f, -, f1, h2, -⟩ := avar_round R hi (cacheInv_of_five (by omega : 5 ≤ p'.lvar)) hs' hz zt' zl zc hu hu' hl hl' hc hc'
  rw [h, ok_inj, Prod.mk.injEq] at e
  rw [h', ok_inj, Prod.mk.injEq] at f
  obtain ⟨rfl, -⟩ := e
  obtain ⟨rfl, -⟩ := f
  have hk : (decodeMode md).1.kdv = 1 ∨ (decodeMode md).1.kdv = 2 ∨ (decodeMode md).1.kdv = 3 := by
    simp only [List.mem_cons, List.not_mem_nil, or_false] at hon
    rcases hon with rfl | rfl | rfl | rfl | rfl | rfl | rfl | rfl | rfl | rfl | rfl | rfl <;> decide
  have key : b' ≤ b := by
    obtain ⟨zd, v, ar, md', hmd', g, _, rfl, rfl⟩ := avar_pair (cacheInv_of_five (by omega : 5 ≤ p'.lvar)) e1 f1
    rw [e', hmd] at hmd'
    obtain rfl := Option.some.inj hmd'
    have := devR_mono_zt g (kdv := (decodeMode md).1.kdv) (by omega) (R.val zl) (R.val zc) hle
    simp only at this
    exact softR_mono (by linarith)
  rw [abs_le] at h1 h2
  norm_num at h1 h2 ⊢
  linarith [h1.1, h1.2, h2.1, h2.2]

/-- Rounding never turns the order in time reliability round by more than `8e-6` dB: accidental, mobile and broadcast modes. -/
theorem C76_time (R : Rounding α) {p₀ p q q' : PropSt α} (h5 : p₀.lvar = 5) (hr : Reach p₀ p)
    (hs : StatRange R p) {md : ℤ} (hmd : p.mdvar = some md) (hon : md ∈ [1, 2, 3, 11, 12, 13, 21, 22, 23, 31, 32, 33])
    {zt zt' zl zc a a' : α} (ht : R.fin zt) (ht' : |R.val zt| ≤ 10)
    (hu : R.fin zt') (hu' : |R.val zt'| ≤ 10) (hl : R.fin zl) (hl' : |R.val zl| ≤ 10) (hc : R.fin zc) (hc' : |R.val zc| ≤ 10)
    (hle : R.val zt ≤ R.val zt') (h : avar zt zl zc p = .ok (a, q)) (h' : avar zt' zl zc p = .ok (a', q')) :
    R.val a' ≤ R.val a + 8e-6 :=
  time_round R (cacheInv_reach (by omega) hr) hs hmd hon ht ht' hu hu' hl hl' hc hc' hle h h'

/-- A dictionary of a usual link (wave number 1, 100 km, terrain irregularity 90 m, heights 10 m and 50 m, 30 dB) meets the hypotheses in any
rounding arithmetic, and `avar` answers on it. -/
example (R : Rounding α) (p₀ : PropSt α) : ∃ a q, avar (PyNum.ofInt 1) (PyNum.ofInt 0) (PyNum.ofInt (-1))
    { p₀ with lvar := 5, klim := some 5, mdvar := some 12, wn := PyNum.ofInt 1, dist := PyNum.ofInt 100000, dh := PyNum.ofInt 90,
              he := ⟨PyNum.ofInt 10, PyNum.ofInt 50⟩, aref := some (PyNum.ofInt 30) } = .ok (a, q) ∧ R.fin a := by
  have h : ∀ n : ℤ, |n| ≤ 100000 → R.fin (PyNum.ofInt n : α) ∧ R.val (PyNum.ofInt n : α) = n := fun n hn => val_int R n (hn.trans (by norm_num))
  have a1 := h 1 (by norm_num)
  have a0 := h 0 (by norm_num)
  have am := h (-1) (by norm_num)
  have ad := h 100000 (by norm_num)
  have a9 := h 90 (by norm_num)
  have a10 := h 10 (by norm_num)
  have a50 := h 50 (by norm_num)
  have a30 := h 30 (by norm_num)
  have hs : StatRange R { p₀ with lvar := 5, klim := some 5, mdvar := some 12, wn := PyNum.ofInt 1, dist := PyNum.ofInt 100000, dh := PyNum.ofInt 90, he := ⟨PyNum.ofInt 10, PyNum.ofInt 50⟩, aref := some (PyNum.ofInt 30) } := by
    refine ⟨⟨_, rfl⟩, ⟨_, rfl⟩, ?_, ?_, ?_, ?_, ?_, _, rfl, ?_⟩ <;>
      simp only [a1, ad, a9, a10, a50, a30] <;> norm_num
  obtain ⟨p', h5', -, hs', hz⟩ := exact_dict hs demo
  obtain ⟨a, q, -, -, e, f, -⟩ := C76_avar R (by rfl) .refl h5' .refl hs' hz _ _ _ a1.1 (by rw [a1.2]; norm_num) a0.1
    (by rw [a0.2]; norm_num) am.1 (by rw [am.2]; norm_num)
  exact ⟨a, q, e, f⟩

end Itm.Props

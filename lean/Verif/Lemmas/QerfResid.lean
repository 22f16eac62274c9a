import Mathlib.Tactic.Ring
import Mathlib.Tactic.Positivity
import Mathlib.Tactic.Linarith
import Mathlib.Data.Real.Basic

/-! Bounds on the polynomial that measures how far the derivative of the Hastings tail of `qerf` is from the normal
density. Each cell is settled by its coefficients in the Bernstein basis, checked by `ring` and `positivity`. -/

namespace Itm

/-- `4.317008 (1 - R(t))`, where `-R(t)` times the normal density is the derivative of the Hastings tail and
`t = 4.317008 / (z + 4.317008)`. -/
noncomputable def resid (t : ℝ) : ℝ :=
  4.317008 - (4.317008 ^ 2 * (1 - t) *
      (0.319381530 - 0.356563782 * t + 1.781477937 * t ^ 2 - 1.821255987 * t ^ 3 + 1.330274429 * t ^ 4) +
    t ^ 2 * (0.319381530 - 2 * 0.356563782 * t + 3 * 1.781477937 * t ^ 2 - 4 * 1.821255987 * t ^ 3 +
      5 * 1.330274429 * t ^ 4))

theorem residA0 {t : ℝ} (h1 : (589 / 1000) ≤ t) (h2 : t ≤ (787 / 1280)) : |resid t| ≤ (1888691 / 31250000000) := by
  have g1 : 0 ≤ t - (589 / 1000) := by linarith
  have g2 : 0 ≤ (787 / 1280) - t := by linarith
  have hup : (1888691 / 31250000000) - resid t = (245163266023232514417852815508504576 / 1220374530852409702301025390625) * (t - (589 / 1000)) ^ 0 * ((787 / 1280) - t) ^ 6 +
      (1014574098757589258990411589440536576 / 1220374530852409702301025390625) * (t - (589 / 1000)) ^ 1 * ((787 / 1280) - t) ^ 5 +
      (13519722062156878939378845154553856 / 9762996246819277618408203125) * (t - (589 / 1000)) ^ 2 * ((787 / 1280) - t) ^ 4 +
      (463248605084195123638305686083904 / 390519849872771104736328125) * (t - (589 / 1000)) ^ 3 * ((787 / 1280) - t) ^ 3 +
      (347737689375461158656729301549 / 624831759796433767578125) * (t - (589 / 1000)) ^ 4 * ((787 / 1280) - t) ^ 2 +
      (2833778038251512844023823347481 / 19994616313485880562500000) * (t - (589 / 1000)) ^ 5 * ((787 / 1280) - t) ^ 1 +
      (1095263521292660528295965153333 / 63982772203154817800000000) * (t - (589 / 1000)) ^ 6 * ((787 / 1280) - t) ^ 0 := by
    unfold resid; ring
  have hdn : (1888691 / 31250000000) + resid t = (249945747480767485582147184491495424 / 1220374530852409702301025390625) * (t - (589 / 1000)) ^ 0 * ((787 / 1280) - t) ^ 6 +
      (1956079982266410741009588410559463424 / 1220374530852409702301025390625) * (t - (589 / 1000)) ^ 1 * ((787 / 1280) - t) ^ 5 +
      (45893359558323121060621154845446144 / 9762996246819277618408203125) * (t - (589 / 1000)) ^ 2 * ((787 / 1280) - t) ^ 4 +
      (2705449081341404876361694313916096 / 390519849872771104736328125) * (t - (589 / 1000)) ^ 3 * ((787 / 1280) - t) ^ 3 +
      (3454699534335258841343270698451 / 624831759796433767578125) * (t - (589 / 1000)) ^ 4 * ((787 / 1280) - t) ^ 2 +
      (45837418425245703155976176652519 / 19994616313485880562500000) * (t - (589 / 1000)) ^ 5 * ((787 / 1280) - t) ^ 1 +
      (24862707925905854671704034846667 / 63982772203154817800000000) * (t - (589 / 1000)) ^ 6 * ((787 / 1280) - t) ^ 0 := by
    unfold resid; ring
  have pu : 0 ≤ (1888691 / 31250000000) - resid t := by rw [hup]; positivity
  have pd : 0 ≤ (1888691 / 31250000000) + resid t := by rw [hdn]; positivity
  rw [abs_le]; constructor <;> linarith

theorem residA1 {t : ℝ} (h1 : (787 / 1280) ≤ t) (h2 : t ≤ (10251 / 16000)) : |resid t| ≤ (1888691 / 31250000000) := by
  have g1 : 0 ≤ t - (787 / 1280) := by linarith
  have g2 : 0 ≤ (10251 / 16000) - t := by linarith
  have hup : (1888691 / 31250000000) - resid t = (1095263521292660528295965153333 / 63982772203154817800000000) * (t - (787 / 1280)) ^ 0 * ((10251 / 16000) - t) ^ 6 +
      (5093840666383856548344183910071 / 79978465253943522250000000) * (t - (787 / 1280)) ^ 1 * ((10251 / 16000) - t) ^ 5 +
      (13304066806948054169305803199007 / 79978465253943522250000000) * (t - (787 / 1280)) ^ 2 * ((10251 / 16000) - t) ^ 4 +
      (2098304510743680918652116823893161 / 6248317597964337675781250000) * (t - (787 / 1280)) ^ 3 * ((10251 / 16000) - t) ^ 3 +
      (123179465290862938044062350041843567 / 312415879898216883789062500000) * (t - (787 / 1280)) ^ 4 * ((10251 / 16000) - t) ^ 2 +
      (2249902477210037367705287442596103267 / 9762996246819277618408203125000) * (t - (787 / 1280)) ^ 5 * ((10251 / 16000) - t) ^ 1 +
      (509861101161962449300850777831028517 / 9762996246819277618408203125000) * (t - (787 / 1280)) ^ 6 * ((10251 / 16000) - t) ^ 0 := by
    unfold resid; ring
  have hdn : (1888691 / 31250000000) + resid t = (24862707925905854671704034846667 / 63982772203154817800000000) * (t - (787 / 1280)) ^ 0 * ((10251 / 16000) - t) ^ 6 +
      (189590945187605007451655816089929 / 79978465253943522250000000) * (t - (787 / 1280)) ^ 1 * ((10251 / 16000) - t) ^ 5 +
      (473407897828024105830694196800993 / 79978465253943522250000000) * (t - (787 / 1280)) ^ 2 * ((10251 / 16000) - t) ^ 4 +
      (48600858472065919081347883176106839 / 6248317597964337675781250000) * (t - (787 / 1280)) ^ 3 * ((10251 / 16000) - t) ^ 3 +
      (1778039146564497061955937649958156433 / 312415879898216883789062500000) * (t - (787 / 1280)) ^ 4 * ((10251 / 16000) - t) ^ 2 +
      (21515330170981962632294712557403896733 / 9762996246819277618408203125000) * (t - (787 / 1280)) ^ 5 * ((10251 / 16000) - t) ^ 1 +
      (3451011006870037550699149222168971483 / 9762996246819277618408203125000) * (t - (787 / 1280)) ^ 6 * ((10251 / 16000) - t) ^ 0 := by
    unfold resid; ring
  have pu : 0 ≤ (1888691 / 31250000000) - resid t := by rw [hup]; positivity
  have pd : 0 ≤ (1888691 / 31250000000) + resid t := by rw [hdn]; positivity
  rw [abs_le]; constructor <;> linarith

theorem residA2 {t : ℝ} (h1 : (10251 / 16000) ≤ t) (h2 : t ≤ (5539 / 8000)) : |resid t| ≤ (1888691 / 31250000000) := by
  have g1 : 0 ≤ t - (10251 / 16000) := by linarith
  have g2 : 0 ≤ (5539 / 8000) - t := by linarith
  have hup : (1888691 / 31250000000) - resid t = (509861101161962449300850777831028517 / 624831759796433767578125000000000) * (t - (10251 / 16000)) ^ 0 * ((5539 / 8000) - t) ^ 6 +
      (1169423716623812338001184778941576693 / 156207939949108441894531250000000) * (t - (10251 / 16000)) ^ 1 * ((5539 / 8000) - t) ^ 5 +
      (836580375096083843998201274226809883 / 31241587989821688378906250000000) * (t - (10251 / 16000)) ^ 2 * ((5539 / 8000) - t) ^ 4 +
      (180518376760321200115310907034735307 / 3905198498727711047363281250000) * (t - (10251 / 16000)) ^ 3 * ((5539 / 8000) - t) ^ 3 +
      (64801347388363360220403982575819739 / 1562079399491084418945312500000) * (t - (10251 / 16000)) ^ 4 * ((5539 / 8000) - t) ^ 2 +
      (182979778055139170995200248677979469 / 9762996246819277618408203125000) * (t - (10251 / 16000)) ^ 5 * ((5539 / 8000) - t) ^ 1 +
      (33023271465765409799263084511810129 / 9762996246819277618408203125000) * (t - (10251 / 16000)) ^ 6 * ((5539 / 8000) - t) ^ 0 := by
    unfold resid; ring
  have hdn : (1888691 / 31250000000) + resid t = (3451011006870037550699149222168971483 / 624831759796433767578125000000000) * (t - (10251 / 16000)) ^ 0 * ((5539 / 8000) - t) ^ 6 +
      (4771884445424187661998815221058423307 / 156207939949108441894531250000000) * (t - (10251 / 16000)) ^ 1 * ((5539 / 8000) - t) ^ 5 +
      (2134073705927916156001798725773190117 / 31241587989821688378906250000000) * (t - (10251 / 16000)) ^ 2 * ((5539 / 8000) - t) ^ 4 +
      (314590636743678799884689092965264693 / 3905198498727711047363281250000) * (t - (10251 / 16000)) ^ 3 * ((5539 / 8000) - t) ^ 3 +
      (83731356662836639779596017424180261 / 1562079399491084418945312500000) * (t - (10251 / 16000)) ^ 4 * ((5539 / 8000) - t) ^ 2 +
      (188351982072860829004799751322020531 / 9762996246819277618408203125000) * (t - (10251 / 16000)) ^ 5 * ((5539 / 8000) - t) ^ 1 +
      (28865355222234590200736915488189871 / 9762996246819277618408203125000) * (t - (10251 / 16000)) ^ 6 * ((5539 / 8000) - t) ^ 0 := by
    unfold resid; ring
  have pu : 0 ≤ (1888691 / 31250000000) - resid t := by rw [hup]; positivity
  have pd : 0 ≤ (1888691 / 31250000000) + resid t := by rw [hdn]; positivity
  rw [abs_le]; constructor <;> linarith

theorem residA3 {t : ℝ} (h1 : (5539 / 8000) ≤ t) (h2 : t ≤ (3183 / 4000)) : |resid t| ≤ (1888691 / 31250000000) := by
  have g1 : 0 ≤ t - (5539 / 8000) := by linarith
  have g2 : 0 ≤ (3183 / 4000) - t := by linarith
  have hup : (1888691 / 31250000000) - resid t = (33023271465765409799263084511810129 / 624831759796433767578125000000000) * (t - (5539 / 8000)) ^ 0 * ((3183 / 4000) - t) ^ 6 +
      (28557416284187379299541877982077923 / 78103969974554220947265625000000) * (t - (5539 / 8000)) ^ 1 * ((3183 / 4000) - t) ^ 5 +
      (29439099546661959927730425657523841 / 31241587989821688378906250000000) * (t - (5539 / 8000)) ^ 2 * ((3183 / 4000) - t) ^ 4 +
      (226951007153392055087811720747619 / 195259924936385552368164062500) * (t - (5539 / 8000)) ^ 3 * ((3183 / 4000) - t) ^ 3 +
      (6070096425537000818461662224734191 / 7810396997455422094726562500000) * (t - (5539 / 8000)) ^ 4 * ((3183 / 4000) - t) ^ 2 +
      (1379592891138704359218028233852897 / 4881498123409638809204101562500) * (t - (5539 / 8000)) ^ 5 * ((3183 / 4000) - t) ^ 1 +
      (438022739852569144663158019960639 / 9762996246819277618408203125000) * (t - (5539 / 8000)) ^ 6 * ((3183 / 4000) - t) ^ 0 := by
    unfold resid; ring
  have hdn : (1888691 / 31250000000) + resid t = (28865355222234590200736915488189871 / 624831759796433767578125000000000) * (t - (5539 / 8000)) ^ 0 * ((3183 / 4000) - t) ^ 6 +
      (17859053731812620700458122017922077 / 78103969974554220947265625000000) * (t - (5539 / 8000)) ^ 1 * ((3183 / 4000) - t) ^ 5 +
      (16977370469338040072269574342476159 / 31241587989821688378906250000000) * (t - (5539 / 8000)) ^ 2 * ((3183 / 4000) - t) ^ 4 +
      (159852909646607944912188279252381 / 195259924936385552368164062500) * (t - (5539 / 8000)) ^ 3 * ((3183 / 4000) - t) ^ 3 +
      (5534021078462999181538337775265809 / 7810396997455422094726562500000) * (t - (5539 / 8000)) ^ 4 * ((3183 / 4000) - t) ^ 2 +
      (1521436484861295640781971766147103 / 4881498123409638809204101562500) * (t - (5539 / 8000)) ^ 5 * ((3183 / 4000) - t) ^ 1 +
      (528987052147430855336841980039361 / 9762996246819277618408203125000) * (t - (5539 / 8000)) ^ 6 * ((3183 / 4000) - t) ^ 0 := by
    unfold resid; ring
  have pu : 0 ≤ (1888691 / 31250000000) - resid t := by rw [hup]; positivity
  have pd : 0 ≤ (1888691 / 31250000000) + resid t := by rw [hdn]; positivity
  rw [abs_le]; constructor <;> linarith

theorem residA4 {t : ℝ} (h1 : (3183 / 4000) ≤ t) (h2 : t ≤ (7193 / 8000)) : |resid t| ≤ (1888691 / 31250000000) := by
  have g1 : 0 ≤ t - (3183 / 4000) := by linarith
  have g2 : 0 ≤ (7193 / 8000) - t := by linarith
  have hup : (1888691 / 31250000000) - resid t = (438022739852569144663158019960639 / 9762996246819277618408203125000) * (t - (3183 / 4000)) ^ 0 * ((7193 / 8000) - t) ^ 6 +
      (1248543547976710508760919885910937 / 4881498123409638809204101562500) * (t - (3183 / 4000)) ^ 1 * ((7193 / 8000) - t) ^ 5 +
      (5021701680241050014804795441198511 / 7810396997455422094726562500000) * (t - (3183 / 4000)) ^ 2 * ((7193 / 8000) - t) ^ 4 +
      (226740524575377995972226517385786 / 244074906170481940460205078125) * (t - (3183 / 4000)) ^ 3 * ((7193 / 8000) - t) ^ 3 +
      (973811738988565471897026036455177 / 1249663519592867535156250000000) * (t - (3183 / 4000)) ^ 4 * ((7193 / 8000) - t) ^ 2 +
      (25823628773995243867532610247363751 / 78103969974554220947265625000000) * (t - (3183 / 4000)) ^ 5 * ((7193 / 8000) - t) ^ 1 +
      (34338876544238733791226289818499953 / 624831759796433767578125000000000) * (t - (3183 / 4000)) ^ 6 * ((7193 / 8000) - t) ^ 0 := by
    unfold resid; ring
  have hdn : (1888691 / 31250000000) + resid t = (528987052147430855336841980039361 / 9762996246819277618408203125000) * (t - (3183 / 4000)) ^ 0 * ((7193 / 8000) - t) ^ 6 +
      (1652485828023289491239080114089063 / 4881498123409638809204101562500) * (t - (3183 / 4000)) ^ 1 * ((7193 / 8000) - t) ^ 5 +
      (6582415823758949985195204558801489 / 7810396997455422094726562500000) * (t - (3183 / 4000)) ^ 2 * ((7193 / 8000) - t) ^ 4 +
      (256764371424622004027773482614214 / 244074906170481940460205078125) * (t - (3183 / 4000)) ^ 3 * ((7193 / 8000) - t) ^ 3 +
      (882847061651434528102973963544823 / 1249663519592867535156250000000) * (t - (3183 / 4000)) ^ 4 * ((7193 / 8000) - t) ^ 2 +
      (20592841242004756132467389752636249 / 78103969974554220947265625000000) * (t - (3183 / 4000)) ^ 5 * ((7193 / 8000) - t) ^ 1 +
      (27549750143761266208773710181500047 / 624831759796433767578125000000000) * (t - (3183 / 4000)) ^ 6 * ((7193 / 8000) - t) ^ 0 := by
    unfold resid; ring
  have pu : 0 ≤ (1888691 / 31250000000) - resid t := by rw [hup]; positivity
  have pd : 0 ≤ (1888691 / 31250000000) + resid t := by rw [hdn]; positivity
  rw [abs_le]; constructor <;> linarith

theorem residA5 {t : ℝ} (h1 : (7193 / 8000) ≤ t) (h2 : t ≤ (401 / 400)) : |resid t| ≤ (1888691 / 31250000000) := by
  have g1 : 0 ≤ t - (7193 / 8000) := by linarith
  have g2 : 0 ≤ (401 / 400) - t := by linarith
  have hup : (1888691 / 31250000000) - resid t = (34338876544238733791226289818499953 / 624831759796433767578125000000000) * (t - (7193 / 8000)) ^ 0 * ((401 / 400) - t) ^ 6 +
      (51369372084725713638613648960772357 / 156207939949108441894531250000000) * (t - (7193 / 8000)) ^ 1 * ((401 / 400) - t) ^ 5 +
      (601685200286234067524351984435607 / 781039699745542209472656250000) * (t - (7193 / 8000)) ^ 2 * ((401 / 400) - t) ^ 4 +
      (34090640777563349180310959569793 / 39051984987277110473632812500) * (t - (7193 / 8000)) ^ 3 * ((401 / 400) - t) ^ 3 +
      (1993440625403773003054598523997 / 3905198498727711047363281250) * (t - (7193 / 8000)) ^ 4 * ((401 / 400) - t) ^ 2 +
      (80369845959020866497707407386 / 390519849872771104736328125) * (t - (7193 / 8000)) ^ 5 * ((401 / 400) - t) ^ 1 +
      (30648716274338431230202940192 / 390519849872771104736328125) * (t - (7193 / 8000)) ^ 6 * ((401 / 400) - t) ^ 0 := by
    unfold resid; ring
  have hdn : (1888691 / 31250000000) + resid t = (27549750143761266208773710181500047 / 624831759796433767578125000000000) * (t - (7193 / 8000)) ^ 0 * ((401 / 400) - t) ^ 6 +
      (41463567947274286361386351039227643 / 156207939949108441894531250000000) * (t - (7193 / 8000)) ^ 1 * ((401 / 400) - t) ^ 5 +
      (558726550113765932475648015564393 / 781039699745542209472656250000) * (t - (7193 / 8000)) ^ 2 * ((401 / 400) - t) ^ 4 +
      (43270142582436650819689040430207 / 39051984987277110473632812500) * (t - (7193 / 8000)) ^ 3 * ((401 / 400) - t) ^ 3 +
      (3808618126596226996945401476003 / 3905198498727711047363281250) * (t - (7193 / 8000)) ^ 4 * ((401 / 400) - t) ^ 2 +
      (151712504120979133502292592614 / 390519849872771104736328125) * (t - (7193 / 8000)) ^ 5 * ((401 / 400) - t) ^ 1 +
      (8031675405661568769797059808 / 390519849872771104736328125) * (t - (7193 / 8000)) ^ 6 * ((401 / 400) - t) ^ 0 := by
    unfold resid; ring
  have pu : 0 ≤ (1888691 / 31250000000) - resid t := by rw [hup]; positivity
  have pd : 0 ≤ (1888691 / 31250000000) + resid t := by rw [hdn]; positivity
  rw [abs_le]; constructor <;> linarith

theorem residA {t : ℝ} (h1 : (589 / 1000) ≤ t) (h2 : t ≤ (401 / 400)) : |resid t| ≤ (1888691 / 31250000000) := by
  rcases le_total t (787 / 1280) with h | h
  · exact residA0 h1 h
  have h0 := h
  clear h
  rcases le_total t (10251 / 16000) with h | h
  · exact residA1 h0 h
  have h0 := h
  clear h
  rcases le_total t (5539 / 8000) with h | h
  · exact residA2 h0 h
  have h0 := h
  clear h
  rcases le_total t (3183 / 4000) with h | h
  · exact residA3 h0 h
  have h0 := h
  clear h
  rcases le_total t (7193 / 8000) with h | h
  · exact residA4 h0 h
  have h0 := h
  clear h
  exact residA5 h0 h2

theorem residB {t : ℝ} (h1 : (463 / 1000) ≤ t) (h2 : t ≤ (59 / 100)) : |resid t| ≤ (1888691 / 312500000) := by
  have g1 : 0 ≤ t - (463 / 1000) := by linarith
  have g2 : 0 ≤ (59 / 100) - t := by linarith
  have hup : (1888691 / 312500000) - resid t = (45439006029999090224686369370607 / 16390128573003906250000000000) * (t - (463 / 1000)) ^ 0 * ((59 / 100) - t) ^ 6 +
      (210974022737966921787263410073407 / 16390128573003906250000000000) * (t - (463 / 1000)) ^ 1 * ((59 / 100) - t) ^ 5 +
      (8825958288110652677564152891641 / 327802571460078125000000000) * (t - (463 / 1000)) ^ 2 * ((59 / 100) - t) ^ 4 +
      (526286056084343214460985230063 / 16390128573003906250000000) * (t - (463 / 1000)) ^ 3 * ((59 / 100) - t) ^ 3 +
      (579086579742592458061206371 / 25609575895318603515625) * (t - (463 / 1000)) ^ 4 * ((59 / 100) - t) ^ 2 +
      (2871463350099238158145460799 / 327802571460078125000000) * (t - (463 / 1000)) ^ 5 * ((59 / 100) - t) ^ 1 +
      (235899317011245936744630301 / 163901285730039062500000) * (t - (463 / 1000)) ^ 6 * ((59 / 100) - t) ^ 0 := by
    unfold resid; ring
  have hdn : (1888691 / 312500000) + resid t = (1778268970000909775313630629393 / 16390128573003906250000000000) * (t - (463 / 1000)) ^ 0 * ((59 / 100) - t) ^ 6 +
      (72329627262033078212736589926593 / 16390128573003906250000000000) * (t - (463 / 1000)) ^ 1 * ((59 / 100) - t) ^ 5 +
      (5339224211889347322435847108359 / 327802571460078125000000000) * (t - (463 / 1000)) ^ 2 * ((59 / 100) - t) ^ 4 +
      (418059443915656785539014769937 / 16390128573003906250000000) * (t - (463 / 1000)) ^ 3 * ((59 / 100) - t) ^ 3 +
      (527568303069907541938793629 / 25609575895318603515625) * (t - (463 / 1000)) ^ 4 * ((59 / 100) - t) ^ 2 +
      (2794609649900761841854539201 / 327802571460078125000000) * (t - (463 / 1000)) ^ 5 * ((59 / 100) - t) ^ 1 +
      (236273432988754063255369699 / 163901285730039062500000) * (t - (463 / 1000)) ^ 6 * ((59 / 100) - t) ^ 0 := by
    unfold resid; ring
  have pu : 0 ≤ (1888691 / 312500000) - resid t := by rw [hup]; positivity
  have pd : 0 ≤ (1888691 / 312500000) + resid t := by rw [hdn]; positivity
  rw [abs_le]; constructor <;> linarith

end Itm

import Mathlib.Tactic.Ring
import Mathlib.Tactic.Positivity
import Mathlib.Tactic.Linarith
import Mathlib.Data.Real.Basic

/-! Polynomial inequalities behind the accuracy of `qerfi`. Each is settled by its coefficients in the Bernstein basis of
its interval, checked by `ring` and `positivity`. -/

namespace Itm

/-- Denominator of the rational approximation. -/
noncomputable def devD (r : ℝ) : ℝ := ((0.001308 * r + 0.189269) * r + 1.432788) * r + 1

/-- Numerator of the rational approximation. -/
noncomputable def devN (r : ℝ) : ℝ := (0.010328 * r + 0.802853) * r + 2.515516698

/-- Numerator of the derivative of `r - devN r / devD r`, over `devD r ^ 2`. -/
noncomputable def devV (r : ℝ) : ℝ :=
  devD r ^ 2 - (2 * 0.010328 * r + 0.802853) * devD r +
    devN r * (3 * 0.001308 * r ^ 2 + 2 * 0.189269 * r + 1.432788)

theorem certG_up {r : ℝ} (h1 : (1177 / 1000) ≤ r) (h2 : r ≤ (18 / 5)) :
    (10003 / 10000) * r * devD r ^ 2 * ((8617328875389 / 6250000000000) * devD r ^ 1 * ((4.317008 + (1 / 200) + r) * devD r - devN r) ^ 4 + (-12978753182886266379 / 1953125000000000000) * devD r ^ 2 * ((4.317008 + (1 / 200) + r) * devD r - devN r) ^ 3 + (34992023757446461781865789 / 244140625000000000000000) * devD r ^ 3 * ((4.317008 + (1 / 200) + r) * devD r - devN r) ^ 2 + (-9652114733294429510005980333507 / 15258789062500000000000000000) * devD r ^ 4 * ((4.317008 + (1 / 200) + r) * devD r - devN r) ^ 1 + (1902197458304775008039315279705247697 / 953674316406250000000000000000000) * devD r ^ 5 * ((4.317008 + (1 / 200) + r) * devD r - devN r) ^ 0) ≤
      devV r * ((4.317008 + (1 / 200) + r) * devD r - devN r) ^ 5 := by
  have g1 : 0 ≤ r - (1177 / 1000) := by linarith
  have g2 : 0 ≤ (18 / 5) - r := by linarith
  rw [← sub_nonneg]
  have e : devV r * ((4.317008 + (1 / 200) + r) * devD r - devN r) ^ 5 -
      (10003 / 10000) * r * devD r ^ 2 * ((8617328875389 / 6250000000000) * devD r ^ 1 * ((4.317008 + (1 / 200) + r) * devD r - devN r) ^ 4 + (-12978753182886266379 / 1953125000000000000) * devD r ^ 2 * ((4.317008 + (1 / 200) + r) * devD r - devN r) ^ 3 + (34992023757446461781865789 / 244140625000000000000000) * devD r ^ 3 * ((4.317008 + (1 / 200) + r) * devD r - devN r) ^ 2 + (-9652114733294429510005980333507 / 15258789062500000000000000000) * devD r ^ 4 * ((4.317008 + (1 / 200) + r) * devD r - devN r) ^ 1 + (1902197458304775008039315279705247697 / 953674316406250000000000000000000) * devD r ^ 5 * ((4.317008 + (1 / 200) + r) * devD r - devN r) ^ 0) =
      (1765163710157097857730461142753245487318591536291178307330476277978211572022770487597168469772222075784240289227263976705313739746632315000356829 / 5730188582694066238294909440289247221935978655067107801252568740082185746172235596058825612999498844146728515625000000000000000000000000000000000000000) * (r - (1177 / 1000)) ^ 0 * ((18 / 5) - r) ^ 26 +
      (305280141019502077080068830466389749426538603159925955323897122030634370261311177602069933950597907152546079124857597367073745084229285090457893807 / 11460377165388132476589818880578494443871957310134215602505137480164371492344471192117651225998997688293457031250000000000000000000000000000000000000000) * (r - (1177 / 1000)) ^ 1 * ((18 / 5) - r) ^ 25 +
      (16696399445036562737039624230268556398070536819327005197896195541500635143653953408154524046502235330411695782531576702204245179565737027070224223671 / 22920754330776264953179637761156988887743914620268431205010274960328742984688942384235302451997995376586914062500000000000000000000000000000000000000000) * (r - (1177 / 1000)) ^ 2 * ((18 / 5) - r) ^ 24 +
      (250620611504959982065217243473469446648882305754550765382012481775446710641851764955527481266516036760428576315255503139382926043180083975276553783489 / 22920754330776264953179637761156988887743914620268431205010274960328742984688942384235302451997995376586914062500000000000000000000000000000000000000000) * (r - (1177 / 1000)) ^ 3 * ((18 / 5) - r) ^ 23 +
      (4975497204850174087635363266103317820911918588863049094358265613065029209180128639231714709618424715470798463985659933994359638778916232554658715246557 / 45841508661552529906359275522313977775487829240536862410020549920657485969377884768470604903995990753173828125000000000000000000000000000000000000000000) * (r - (1177 / 1000)) ^ 4 * ((18 / 5) - r) ^ 22 +
      (716133708428422586744290753862214786972174874757255706476372198953315468355843434839283394340508869481115066307409827438710946597307155688939531713539 / 916830173231050598127185510446279555509756584810737248200410998413149719387557695369412098079919815063476562500000000000000000000000000000000000000000) * (r - (1177 / 1000)) ^ 5 * ((18 / 5) - r) ^ 21 +
      (78869606232899594598505891886326015467293906881759747011465549369958844406591532394538803791218169556317470109334890644745314428283262808224405292777 / 18336603464621011962543710208925591110195131696214744964008219968262994387751153907388241961598396301269531250000000000000000000000000000000000000000) * (r - (1177 / 1000)) ^ 6 * ((18 / 5) - r) ^ 20 +
      (1376407104373007375763561431618895532307415700440649666534872850778187810583863659150938326582276757131528401855488962789193428198631305889984240651 / 73346413858484047850174840835702364440780526784858979856032879873051977551004615629552967846393585205078125000000000000000000000000000000000000000) * (r - (1177 / 1000)) ^ 7 * ((18 / 5) - r) ^ 19 +
      (97458791212226189832884068906038741397545015244063867440997204447739428270151402374672518213144144063634994338983036172494153985151201778320547171 / 1466928277169680957003496816714047288815610535697179597120657597461039551020092312591059356927871704101562500000000000000000000000000000000000000) * (r - (1177 / 1000)) ^ 8 * ((18 / 5) - r) ^ 18 +
      (28477330209503986734154748842565235126707431911989825646257714085012987384734365332853015407791098229152686171826818962959060183783636766780845513 / 146692827716968095700349681671404728881561053569717959712065759746103955102009231259105935692787170410156250000000000000000000000000000000000000) * (r - (1177 / 1000)) ^ 9 * ((18 / 5) - r) ^ 17 +
      (1390462399574372375982423226276022622574265369692120265759154918825176229817186695989677623517094657800324281440242514287616188991344576560335531 / 2933856554339361914006993633428094577631221071394359194241315194922079102040184625182118713855743408203125000000000000000000000000000000000000) * (r - (1177 / 1000)) ^ 10 * ((18 / 5) - r) ^ 16 +
      (57226717168355391870481206507852824402962851362977801423591302730431155543502862720401871320920798524113643174597619269025370814575593299514873 / 58677131086787238280139872668561891552624421427887183884826303898441582040803692503642374277114868164062500000000000000000000000000000000000) * (r - (1177 / 1000)) ^ 11 * ((18 / 5) - r) ^ 15 +
      (49938496283941918121176140740606276180259459107312429805115767662552973862062103672139449702546387530256440613939754730666025507967620381761 / 29338565543393619140069936334280945776312210713943591942413151949220791020401846251821187138557434082031250000000000000000000000000000000) * (r - (1177 / 1000)) ^ 12 * ((18 / 5) - r) ^ 14 +
      (46384376088596398708649129777890793969089306716495851594138013765077215006705409416455823194687836709733342398341963116015481070981316083 / 18336603464621011962543710208925591110195131696214744964008219968262994387751153907388241961598396301269531250000000000000000000000000) * (r - (1177 / 1000)) ^ 13 * ((18 / 5) - r) ^ 13 +
      (735244123202622491724862924526953192412749804943808080212274124779918245663347607832694251482719893892480659965303525438100285703406289 / 229207543307762649531796377611569888877439146202684312050102749603287429846889423842353024519979953765869140625000000000000000000000) * (r - (1177 / 1000)) ^ 14 * ((18 / 5) - r) ^ 12 +
      (15915823733321436865737242909856107618490290619598720811884247435120579500971462441834387934869867747428331922900080951433089070302983 / 4584150866155252990635927552231397777548782924053686241002054992065748596937788476847060490399599075317382812500000000000000000000) * (r - (1177 / 1000)) ^ 15 * ((18 / 5) - r) ^ 11 +
      (36701879884231878680954508094251949269922914913216971433466072471854310772436227818153274549749145310562385916657114511485867066223 / 11460377165388132476589818880578494443871957310134215602505137480164371492344471192117651225998997688293457031250000000000000000) * (r - (1177 / 1000)) ^ 16 * ((18 / 5) - r) ^ 10 +
      (28749533647070387856543570340083126713502878598983400829586331789559969581599549022948035313264678921620786200932310121025516343 / 11460377165388132476589818880578494443871957310134215602505137480164371492344471192117651225998997688293457031250000000000000) * (r - (1177 / 1000)) ^ 17 * ((18 / 5) - r) ^ 9 +
      (47533462330148148007619061761543961952576970672947705720863436266092201795758036070164038820501967689123244311643741694065381 / 28650942913470331191474547201446236109679893275335539006262843700410928730861177980294128064997494220733642578125000000000) * (r - (1177 / 1000)) ^ 18 * ((18 / 5) - r) ^ 8 +
      (1315491028456534958720241078122276529065328600089507381543615978166024310077207970385026190488348411021478939008128404888333 / 1432547145673516559573727360072311805483994663766776950313142185020546436543058899014706403249874711036682128906250000000) * (r - (1177 / 1000)) ^ 19 * ((18 / 5) - r) ^ 7 +
      (1504425073808705469156506624840806461802945241846285812594379005835583796429984534590661867189835546400423571696063689857 / 3581367864183791398934318400180779513709986659416942375782855462551366091357647247536766008124686777591705322265625000) * (r - (1177 / 1000)) ^ 20 * ((18 / 5) - r) ^ 6 +
      (2793132574178918823803096607646016891827976375698714705275183458542735702504853894081616568414031218550854513262139954 / 17906839320918956994671592000903897568549933297084711878914277312756830456788236237683830040623433887958526611328125) * (r - (1177 / 1000)) ^ 21 * ((18 / 5) - r) ^ 5 +
      (6561242272798775183547889746623777521365260096343080233275358047261940415619775546897012306727050039094048396868896 / 143254714567351655957372736007231180548399466376677695031314218502054643654305889901470640324987471103668212890625) * (r - (1177 / 1000)) ^ 22 * ((18 / 5) - r) ^ 4 +
      (58580820055765296883677263063858634281448433072505753485208415515206632533153468537636932511552802999947389158912 / 5730188582694066238294909440289247221935978655067107801252568740082185746172235596058825612999498844146728515625) * (r - (1177 / 1000)) ^ 23 * ((18 / 5) - r) ^ 3 +
      (1864616289018035354027744853213108113122924661112898871320866925016534585409007419326050183265997170215156277248 / 1146037716538813247658981888057849444387195731013421560250513748016437149234447119211765122599899768829345703125) * (r - (1177 / 1000)) ^ 24 * ((18 / 5) - r) ^ 2 +
      (7518935012109333643141269166594620961209130607938052814320751844132443140821114866030204021808997217262764032 / 45841508661552529906359275522313977775487829240536862410020549920657485969377884768470604903995990753173828125) * (r - (1177 / 1000)) ^ 25 * ((18 / 5) - r) ^ 1 +
      (14375752123111075064024078993739330456674908793887933961921865043824174039298571217514000421046265097224192 / 1833660346462101196254371020892559111019513169621474496400821996826299438775115390738824196159839630126953125) * (r - (1177 / 1000)) ^ 26 * ((18 / 5) - r) ^ 0 := by
    unfold devV devN devD; ring
  rw [e]
  positivity

theorem certG_lo {r : ℝ} (h1 : (1177 / 1000) ≤ r) (h2 : r ≤ (18 / 5)) :
    devV r * ((4.317008 - (1 / 200) + r) * devD r - devN r) ^ 5 ≤
      (9997 / 10000) * r * devD r ^ 2 * ((8617328875389 / 6250000000000) * devD r ^ 1 * ((4.317008 - (1 / 200) + r) * devD r - devN r) ^ 4 + (-12978753182886266379 / 1953125000000000000) * devD r ^ 2 * ((4.317008 - (1 / 200) + r) * devD r - devN r) ^ 3 + (34992023757446461781865789 / 244140625000000000000000) * devD r ^ 3 * ((4.317008 - (1 / 200) + r) * devD r - devN r) ^ 2 + (-9652114733294429510005980333507 / 15258789062500000000000000000) * devD r ^ 4 * ((4.317008 - (1 / 200) + r) * devD r - devN r) ^ 1 + (1902197458304775008039315279705247697 / 953674316406250000000000000000000) * devD r ^ 5 * ((4.317008 - (1 / 200) + r) * devD r - devN r) ^ 0) := by
  have g1 : 0 ≤ r - (1177 / 1000) := by linarith
  have g2 : 0 ≤ (18 / 5) - r := by linarith
  rw [← sub_nonneg]
  have e : (9997 / 10000) * r * devD r ^ 2 * ((8617328875389 / 6250000000000) * devD r ^ 1 * ((4.317008 - (1 / 200) + r) * devD r - devN r) ^ 4 + (-12978753182886266379 / 1953125000000000000) * devD r ^ 2 * ((4.317008 - (1 / 200) + r) * devD r - devN r) ^ 3 + (34992023757446461781865789 / 244140625000000000000000) * devD r ^ 3 * ((4.317008 - (1 / 200) + r) * devD r - devN r) ^ 2 + (-9652114733294429510005980333507 / 15258789062500000000000000000) * devD r ^ 4 * ((4.317008 - (1 / 200) + r) * devD r - devN r) ^ 1 + (1902197458304775008039315279705247697 / 953674316406250000000000000000000) * devD r ^ 5 * ((4.317008 - (1 / 200) + r) * devD r - devN r) ^ 0) -
      devV r * ((4.317008 - (1 / 200) + r) * devD r - devN r) ^ 5 =
      (16652028466018306396112031197087028978336569567093806526264580874436675668153498493731172358637785645279657211767856599136273512252456070508781829 / 5730188582694066238294909440289247221935978655067107801252568740082185746172235596058825612999498844146728515625000000000000000000000000000000000000000) * (r - (1177 / 1000)) ^ 0 * ((18 / 5) - r) ^ 26 +
      (1111796760257191813071999996694057352590380585383558678426595141556702148159177064108290167946769802361471616860248222690326599146159472344479356307 / 11460377165388132476589818880578494443871957310134215602505137480164371492344471192117651225998997688293457031250000000000000000000000000000000000000000) * (r - (1177 / 1000)) ^ 1 * ((18 / 5) - r) ^ 25 +
      (35438274628857608771986769518442657841437697226074649201731886716336749101493628043208650415461514360386344270124673662436140253671757822262548142421 / 22920754330776264953179637761156988887743914620268431205010274960328742984688942384235302451997995376586914062500000000000000000000000000000000000000000) * (r - (1177 / 1000)) ^ 2 * ((18 / 5) - r) ^ 24 +
      (359883877305563341396975297580567228926734357075697321691427577221342972819802486485213901260011555590920335161372998831057350429293564468809718270989 / 22920754330776264953179637761156988887743914620268431205010274960328742984688942384235302451997995376586914062500000000000000000000000000000000000000000) * (r - (1177 / 1000)) ^ 3 * ((18 / 5) - r) ^ 23 +
      (5247787126289634448661038672530785779651189862637247944783801765580812405761409188604588273014356729422751910593503874629433253469038584802795482959057 / 45841508661552529906359275522313977775487829240536862410020549920657485969377884768470604903995990753173828125000000000000000000000000000000000000000000) * (r - (1177 / 1000)) ^ 4 * ((18 / 5) - r) ^ 22 +
      (587215260106041726188541541139489771419822014602409188585032279731666289505367580474670603395354258198971176123284001351110728883454134908301216201039 / 916830173231050598127185510446279555509756584810737248200410998413149719387557695369412098079919815063476562500000000000000000000000000000000000000000) * (r - (1177 / 1000)) ^ 5 * ((18 / 5) - r) ^ 21 +
      (52647427915292097056019221474788586660663172164335499830914690831984126084118494121576701749311962917853806401265107739391822485294010830053258255277 / 18336603464621011962543710208925591110195131696214744964008219968262994387751153907388241961598396301269531250000000000000000000000000000000000000000) * (r - (1177 / 1000)) ^ 6 * ((18 / 5) - r) ^ 20 +
      (779766884262464075358903473012742303763690663302880126289591586382872880535493936096203315275930396931184948444084133607618381874369951274304628151 / 73346413858484047850174840835702364440780526784858979856032879873051977551004615629552967846393585205078125000000000000000000000000000000000000000) * (r - (1177 / 1000)) ^ 7 * ((18 / 5) - r) ^ 19 +
      (48766900272800558352195722550073714396442877107627763478143227889328060085868852280100532121790425454054298109477079543966978964688333254792434671 / 1466928277169680957003496816714047288815610535697179597120657597461039551020092312591059356927871704101562500000000000000000000000000000000000000) * (r - (1177 / 1000)) ^ 8 * ((18 / 5) - r) ^ 18 +
      (13083561152357189713902610191213069676832900135436235101299563616869967674860084602914937327220354133807515898633678135335027795754716997021508013 / 146692827716968095700349681671404728881561053569717959712065759746103955102009231259105935692787170410156250000000000000000000000000000000000000) * (r - (1177 / 1000)) ^ 9 * ((18 / 5) - r) ^ 17 +
      (608601974722107041109559311732840622015333988705678345528721085284048477874095081378965561818080197585362263218863162661101366650197289127973031 / 2933856554339361914006993633428094577631221071394359194241315194922079102040184625182118713855743408203125000000000000000000000000000000000000) * (r - (1177 / 1000)) ^ 10 * ((18 / 5) - r) ^ 16 +
      (24680870679106324213298827047574873531091680808943620126222316206572534292849635624034829021591421709041821253060859408661750738379275129677373 / 58677131086787238280139872668561891552624421427887183884826303898441582040803692503642374277114868164062500000000000000000000000000000000000) * (r - (1177 / 1000)) ^ 11 * ((18 / 5) - r) ^ 15 +
      (21851617350132204053279501944549092810587304822417111118049713090205264458118183593051354510754663038181400170714209669058059360680052144261 / 29338565543393619140069936334280945776312210713943591942413151949220791020401846251821187138557434082031250000000000000000000000000000000) * (r - (1177 / 1000)) ^ 12 * ((18 / 5) - r) ^ 14 +
      (2636498347935148392535064230584848978121994623827410732924277306700030386576181786120310111462767064339757320306218718406994123709702401 / 2292075433077626495317963776115698888774391462026843120501027496032874298468894238423530245199799537658691406250000000000000000000000) * (r - (1177 / 1000)) ^ 13 * ((18 / 5) - r) ^ 13 +
      (88484517493408203303373222026232761651151368968658374620880108654703669140436925714263646064775299767570804203029099551122999884375791 / 57301885826940662382949094402892472219359786550671078012525687400821857461722355960588256129994988441467285156250000000000000000000) * (r - (1177 / 1000)) ^ 14 * ((18 / 5) - r) ^ 12 +
      (8221135479927130186142998018630780267243152458681312882290836850569289478637265613272425873174498878164285498688150382804257861059233 / 4584150866155252990635927552231397777548782924053686241002054992065748596937788476847060490399599075317382812500000000000000000000) * (r - (1177 / 1000)) ^ 15 * ((18 / 5) - r) ^ 11 +
      (20529073977392288723899163796080079297676788380052788690914606293573697661882347473028416905569278032436989380087547682199778947473 / 11460377165388132476589818880578494443871957310134215602505137480164371492344471192117651225998997688293457031250000000000000000) * (r - (1177 / 1000)) ^ 16 * ((18 / 5) - r) ^ 10 +
      (17512476591916785642215095372410867961467374507156182432227470727765329066313833574264081278045881869266082481235843456545616343 / 11460377165388132476589818880578494443871957310134215602505137480164371492344471192117651225998997688293457031250000000000000) * (r - (1177 / 1000)) ^ 17 * ((18 / 5) - r) ^ 9 +
      (31628144751479715725912274096286962517196567040443163429059987430322695588061628059869957166070590823158188195998233502015381 / 28650942913470331191474547201446236109679893275335539006262843700410928730861177980294128064997494220733642578125000000000) * (r - (1177 / 1000)) ^ 18 * ((18 / 5) - r) ^ 8 +
      (957342230540312385246378251314733624095690187708974455330112718193721703526072482980592279478911438382035545259619655488333 / 1432547145673516559573727360072311805483994663766776950313142185020546436543058899014706403249874711036682128906250000000) * (r - (1177 / 1000)) ^ 19 * ((18 / 5) - r) ^ 7 +
      (1197762561200577140673180801252250749907447527239085511323772952850709264470046272936917053508340692480140984713071089857 / 3581367864183791398934318400180779513709986659416942375782855462551366091357647247536766008124686777591705322265625000) * (r - (1177 / 1000)) ^ 20 * ((18 / 5) - r) ^ 6 +
      (2432939895068009443134558105632279491223231828300106009573761771295017904051333210918352730435605920084314199219939954 / 17906839320918956994671592000903897568549933297084711878914277312756830456788236237683830040623433887958526611328125) * (r - (1177 / 1000)) ^ 21 * ((18 / 5) - r) ^ 5 +
      (6256503817153747723060480781123282257301389432897859328105133880645632674589783161023538120930949909010162384068896 / 143254714567351655957372736007231180548399466376677695031314218502054643654305889901470640324987471103668212890625) * (r - (1177 / 1000)) ^ 22 * ((18 / 5) - r) ^ 4 +
      (61276538023602075888074638609562879131116593163080399487405123232392288417986701971042531092672380038414947558912 / 5730188582694066238294909440289247221935978655067107801252568740082185746172235596058825612999498844146728515625) * (r - (1177 / 1000)) ^ 23 * ((18 / 5) - r) ^ 3 +
      (2149100929319209564764828792724520345461132524856195427131423115649718373139139361460969917816823297940109877248 / 1146037716538813247658981888057849444387195731013421560250513748016437149234447119211765122599899768829345703125) * (r - (1177 / 1000)) ^ 24 * ((18 / 5) - r) ^ 2 +
      (9626064294316924974634657512849880278047278446773246907643529091004438049678233487613297743854181522005164032 / 45841508661552529906359275522313977775487829240536862410020549920657485969377884768470604903995990753173828125) * (r - (1177 / 1000)) ^ 25 * ((18 / 5) - r) ^ 1 +
      (20713922037852303447501716483318563470847501512262481089175192507525749631579875679130494995193629551624192 / 1833660346462101196254371020892559111019513169621474496400821996826299438775115390738824196159839630126953125) * (r - (1177 / 1000)) ^ 26 * ((18 / 5) - r) ^ 0 := by
    unfold devV devN devD; ring
  rw [e]
  positivity

theorem certC_up {r : ℝ} (h1 : (18 / 5) ≤ r) (h2 : r ≤ (263 / 50)) :
    r * devD r ^ 2 * (8 * ((r + (1 / 200)) * devD r - devN r) ^ 0 * devD r ^ 5 + 9 * ((r + (1 / 200)) * devD r - devN r) ^ 2 * devD r ^ 3 + 1 * ((r + (1 / 200)) * devD r - devN r) ^ 4 * devD r ^ 1) ≤
      devV r * (15 * ((r + (1 / 200)) * devD r - devN r) ^ 1 * devD r ^ 4 + 10 * ((r + (1 / 200)) * devD r - devN r) ^ 3 * devD r ^ 2 + 1 * ((r + (1 / 200)) * devD r - devN r) ^ 5 * devD r ^ 0) := by
  have g1 : 0 ≤ r - (18 / 5) := by linarith
  have g2 : 0 ≤ (263 / 50) - r := by linarith
  rw [← sub_nonneg]
  have e : devV r * (15 * ((r + (1 / 200)) * devD r - devN r) ^ 1 * devD r ^ 4 + 10 * ((r + (1 / 200)) * devD r - devN r) ^ 3 * devD r ^ 2 + 1 * ((r + (1 / 200)) * devD r - devN r) ^ 5 * devD r ^ 0) -
      r * devD r ^ 2 * (8 * ((r + (1 / 200)) * devD r - devN r) ^ 0 * devD r ^ 5 + 9 * ((r + (1 / 200)) * devD r - devN r) ^ 2 * devD r ^ 3 + 1 * ((r + (1 / 200)) * devD r - devN r) ^ 4 * devD r ^ 1) =
      (64169599725804579506510582070761075437681462022730980741958278111490313 / 15173029145804734564036128225318396457652540983088000000000000000000000) * (r - (18 / 5)) ^ 0 * ((263 / 50) - r) ^ 26 +
      (82035622599151063272516030954434911533972997570129196510110521848366103697 / 606921165832189382561445129012735858306101639323520000000000000000000000) * (r - (18 / 5)) ^ 1 * ((263 / 50) - r) ^ 25 +
      (3782606848643006938112305856863507088604438477678071678606992364093814007 / 1828075800699365610124834725941975476825607347360000000000000000000000) * (r - (18 / 5)) ^ 2 * ((263 / 50) - r) ^ 24 +
      (490568544582360579414237346916842176508866445279232180326301445410184508216369 / 24276846633287575302457805160509434332244065572940800000000000000000000000) * (r - (18 / 5)) ^ 3 * ((263 / 50) - r) ^ 23 +
      (17169224486997037080671130380885148445368601907680246694392776161357351718346779 / 121384233166437876512289025802547171661220327864704000000000000000000000000) * (r - (18 / 5)) ^ 4 * ((263 / 50) - r) ^ 22 +
      (9174208593712958979106804637364525798815632768140625681146362686240225804542744201 / 12138423316643787651228902580254717166122032786470400000000000000000000000000) * (r - (18 / 5)) ^ 5 * ((263 / 50) - r) ^ 21 +
      (194562757731127824408309686242480666096442740087237423781285668015051883919193507003 / 60692116583218938256144512901273585830610163932352000000000000000000000000000) * (r - (18 / 5)) ^ 6 * ((263 / 50) - r) ^ 20 +
      (5379462649017929022765815478908006898651243775729541172627765277005908071280199561489 / 485536932665751506049156103210188686644881311458816000000000000000000000000000) * (r - (18 / 5)) ^ 7 * ((263 / 50) - r) ^ 19 +
      (154299472457695098456536167419544560185775518306638211887875194692856288079789825841659 / 4855369326657515060491561032101886866448813114588160000000000000000000000000000) * (r - (18 / 5)) ^ 8 * ((263 / 50) - r) ^ 18 +
      (14887038294894705889721540806021296034863276015030400215268370891911715212966186812876097 / 194214773066300602419662441284075474657952524583526400000000000000000000000000000) * (r - (18 / 5)) ^ 9 * ((263 / 50) - r) ^ 17 +
      (95264071604176914993248851811350772584375297428542987670552906348233128676570304219588227 / 606921165832189382561445129012735858306101639323520000000000000000000000000000000) * (r - (18 / 5)) ^ 10 * ((263 / 50) - r) ^ 16 +
      (53353488512363346374082542520167400173395901194614801826200854105307448101178235547658742289 / 194214773066300602419662441284075474657952524583526400000000000000000000000000000000) * (r - (18 / 5)) ^ 11 * ((263 / 50) - r) ^ 15 +
      (16034372840407340731660636654980805163270688488988303230508600654217317050485203758143486449 / 38842954613260120483932488256815094931590504916705280000000000000000000000000000000) * (r - (18 / 5)) ^ 12 * ((263 / 50) - r) ^ 14 +
      (518524821008179282301034468234982091668613846649111056868064190796417242234252157722644855753 / 971073865331503012098312206420377373289762622917632000000000000000000000000000000000) * (r - (18 / 5)) ^ 13 * ((263 / 50) - r) ^ 13 +
      (11558355991165650758197850090514516449712159507239996739827086794805213053367071401989717342427 / 19421477306630060241966244128407547465795252458352640000000000000000000000000000000000) * (r - (18 / 5)) ^ 14 * ((263 / 50) - r) ^ 12 +
      (138645083234087973023822625917735939550212691969643160402090728825526100381390457020962769028517 / 242768466332875753024578051605094343322440655729408000000000000000000000000000000000000) * (r - (18 / 5)) ^ 15 * ((263 / 50) - r) ^ 11 +
      (285684401178423634570567201173283511018664766559217552213463311453205550424597888793537066471133 / 606921165832189382561445129012735858306101639323520000000000000000000000000000000000000) * (r - (18 / 5)) ^ 16 * ((263 / 50) - r) ^ 10 +
      (402742025504632751373699261053886450665880483272786750976487328315601271127131868444744024496759 / 1213842331664378765122890258025471716612203278647040000000000000000000000000000000000000) * (r - (18 / 5)) ^ 17 * ((263 / 50) - r) ^ 9 +
      (2411965598553650306278141087634168483378508851638729187401072167640512002014300479514176061090507 / 12138423316643787651228902580254717166122032786470400000000000000000000000000000000000000) * (r - (18 / 5)) ^ 18 * ((263 / 50) - r) ^ 8 +
      (759971604723256176674970665716910268710477148845903919995434127503734256243257566924526269478849 / 7586514572902367282018064112659198228826270491544000000000000000000000000000000000000000) * (r - (18 / 5)) ^ 19 * ((263 / 50) - r) ^ 7 +
      (15918357497218057615005399011134994543234630902545722159364273026227748833392091364417255313762377 / 379325728645118364100903205632959911441313524577200000000000000000000000000000000000000000) * (r - (18 / 5)) ^ 20 * ((263 / 50) - r) ^ 6 +
      (3401261447550295679043874514869916025698318598804835935068749473568397022696239162743104687551377 / 237078580403198977563064503520599944650820952860750000000000000000000000000000000000000000) * (r - (18 / 5)) ^ 21 * ((263 / 50) - r) ^ 5 +
      (29589999138089054084189813270882473222102680912363054176990899722427076193996002019728813203682977 / 7586514572902367282018064112659198228826270491544000000000000000000000000000000000000000000) * (r - (18 / 5)) ^ 22 * ((263 / 50) - r) ^ 4 +
      (3077093227065384632706094958880017829009354108689472735577341532345224463700384799416740758186717 / 3793257286451183641009032056329599114413135245772000000000000000000000000000000000000000000) * (r - (18 / 5)) ^ 23 * ((263 / 50) - r) ^ 3 +
      (229935262572083943808916393600787850698368074067717149612343294632989956937563988254712935256757 / 1896628643225591820504516028164799557206567622886000000000000000000000000000000000000000000) * (r - (18 / 5)) ^ 24 * ((263 / 50) - r) ^ 2 +
      (43974904209494571854857870280886657694636505122014043377167358419669358705896006357189247701683 / 3793257286451183641009032056329599114413135245772000000000000000000000000000000000000000000) * (r - (18 / 5)) ^ 25 * ((263 / 50) - r) ^ 1 +
      (4042371361244044691333982548576416142595195391962043813709042437940690158445204916685788498569 / 7586514572902367282018064112659198228826270491544000000000000000000000000000000000000000000) * (r - (18 / 5)) ^ 26 * ((263 / 50) - r) ^ 0 := by
    unfold devV devN devD; ring
  rw [e]
  positivity

theorem certC_lo {r : ℝ} (h1 : (18 / 5) ≤ r) (h2 : r ≤ (263 / 50)) :
    devV r * (15 * ((r - (1 / 200)) * devD r - devN r) ^ 0 * devD r ^ 6 + 45 * ((r - (1 / 200)) * devD r - devN r) ^ 2 * devD r ^ 4 + 15 * ((r - (1 / 200)) * devD r - devN r) ^ 4 * devD r ^ 2 + 1 * ((r - (1 / 200)) * devD r - devN r) ^ 6 * devD r ^ 0) ≤
      r * devD r ^ 2 * (33 * ((r - (1 / 200)) * devD r - devN r) ^ 1 * devD r ^ 5 + 14 * ((r - (1 / 200)) * devD r - devN r) ^ 3 * devD r ^ 3 + 1 * ((r - (1 / 200)) * devD r - devN r) ^ 5 * devD r ^ 1) := by
  have g1 : 0 ≤ r - (18 / 5) := by linarith
  have g2 : 0 ≤ (263 / 50) - r := by linarith
  rw [← sub_nonneg]
  have e : r * devD r ^ 2 * (33 * ((r - (1 / 200)) * devD r - devN r) ^ 1 * devD r ^ 5 + 14 * ((r - (1 / 200)) * devD r - devN r) ^ 3 * devD r ^ 3 + 1 * ((r - (1 / 200)) * devD r - devN r) ^ 5 * devD r ^ 1) -
      devV r * (15 * ((r - (1 / 200)) * devD r - devN r) ^ 0 * devD r ^ 6 + 45 * ((r - (1 / 200)) * devD r - devN r) ^ 2 * devD r ^ 4 + 15 * ((r - (1 / 200)) * devD r - devN r) ^ 4 * devD r ^ 2 + 1 * ((r - (1 / 200)) * devD r - devN r) ^ 6 * devD r ^ 0) =
      (3549860833817997720937193838942159456607481800195221001766754766279571093192938444613 / 119534356965496844779130390399777250524561174609213615291168000000000000000000000000) * (r - (18 / 5)) ^ 0 * ((263 / 50) - r) ^ 30 +
      (5260290608844820622398901147962948393074164224184846900249289803595334440384852053726093 / 4781374278619873791165215615991090020982446984368544611646720000000000000000000000000) * (r - (18 / 5)) ^ 1 * ((263 / 50) - r) ^ 29 +
      (470074287769825619677369019729381859770739492262272954502194144200559626581210845083226721 / 23906871393099368955826078079955450104912234921842723058233600000000000000000000000000) * (r - (18 / 5)) ^ 2 * ((263 / 50) - r) ^ 28 +
      (107971500505654675263796648581733250127641247393947652086027425483737262669151641561361975773 / 478137427861987379116521561599109002098244698436854461164672000000000000000000000000000) * (r - (18 / 5)) ^ 3 * ((263 / 50) - r) ^ 27 +
      (8953496737088743921347825123391293099065315348070970253079966047570466402029253648667968385487 / 4781374278619873791165215615991090020982446984368544611646720000000000000000000000000000) * (r - (18 / 5)) ^ 4 * ((263 / 50) - r) ^ 26 +
      (2284437249679543906504137122278731183654249575343217497593868198223835495919006424621326699263787 / 191254971144794951646608624639643600839297879374741784465868800000000000000000000000000000) * (r - (18 / 5)) ^ 5 * ((263 / 50) - r) ^ 25 +
      (58295923518654565237585194642123972687993918316619704420614124766761344636146996683637852913946569 / 956274855723974758233043123198218004196489396873708922329344000000000000000000000000000000) * (r - (18 / 5)) ^ 6 * ((263 / 50) - r) ^ 24 +
      (2444877188964097805121588508501892220512696918447689444332334821942155166425893725184898189059431011 / 9562748557239747582330431231982180041964893968737089223293440000000000000000000000000000000) * (r - (18 / 5)) ^ 7 * ((263 / 50) - r) ^ 23 +
      (171735591093392547824394236899190951587110943670875987015875424690889656572233816653219141243667042593 / 191254971144794951646608624639643600839297879374741784465868800000000000000000000000000000000) * (r - (18 / 5)) ^ 8 * ((263 / 50) - r) ^ 22 +
      (20487378797432162779135441158518975352448605014730883747711153269558221519847917280257859409602510533043 / 7650198845791798065864344985585744033571915174989671378634752000000000000000000000000000000000) * (r - (18 / 5)) ^ 9 * ((263 / 50) - r) ^ 21 +
      (262137958680457042223836135282951049358192128050239348819309442909232300459456000270498879471658904394411 / 38250994228958990329321724927928720167859575874948356893173760000000000000000000000000000000000) * (r - (18 / 5)) ^ 10 * ((263 / 50) - r) ^ 20 +
      (11602057322827995558268184918539703756054923605319133966329123834957134910719315340884993835503074802979853 / 765019884579179806586434498558574403357191517498967137863475200000000000000000000000000000000000) * (r - (18 / 5)) ^ 11 * ((263 / 50) - r) ^ 19 +
      (223327338082650609209040442510371194382369481040706743261779589072672865785857518901058914691822708469654957 / 7650198845791798065864344985585744033571915174989671378634752000000000000000000000000000000000000) * (r - (18 / 5)) ^ 12 * ((263 / 50) - r) ^ 18 +
      (15020129973258119377066635082141885138399580062953762037396659229516733787127350384827117962607696859536268757 / 306007953831671922634573799423429761342876606999586855145390080000000000000000000000000000000000000) * (r - (18 / 5)) ^ 13 * ((263 / 50) - r) ^ 17 +
      (110617860655864917602731486659401786441634218678441997632547667715993506953035606197743650339791909687609924379 / 1530039769158359613172868997117148806714383034997934275726950400000000000000000000000000000000000000) * (r - (18 / 5)) ^ 14 * ((263 / 50) - r) ^ 16 +
      (11169437973408521186999459259561875807373794365200214567684158262457120716219069262956412336435726590204927057 / 119534356965496844779130390399777250524561174609213615291168000000000000000000000000000000000000000) * (r - (18 / 5)) ^ 15 * ((263 / 50) - r) ^ 15 +
      (16223108354228992759180011986976807313389622778132052491882461216675670592985150481783937187448389666578841892879 / 153003976915835961317286899711714880671438303499793427572695040000000000000000000000000000000000000000) * (r - (18 / 5)) ^ 16 * ((263 / 50) - r) ^ 14 +
      (40384576950612193868533145298071470730100558757510041975855535078893860102005273270475248422376776560986368329219 / 382509942289589903293217249279287201678595758749483568931737600000000000000000000000000000000000000000) * (r - (18 / 5)) ^ 17 * ((263 / 50) - r) ^ 13 +
      (352286071697158347662288884999735226216928945884787872286676094341487105624992860338688994802115217551821861349961 / 3825099422895899032932172492792872016785957587494835689317376000000000000000000000000000000000000000000) * (r - (18 / 5)) ^ 18 * ((263 / 50) - r) ^ 12 +
      (335578574854743568947315379535642260064092078614051078119851511150386671559997622394986350311773759275299944630323 / 4781374278619873791165215615991090020982446984368544611646720000000000000000000000000000000000000000000) * (r - (18 / 5)) ^ 19 * ((263 / 50) - r) ^ 11 +
      (4449433769617225959900326686721255713230785235779653436490725400928012216082734887102494154398017940435818729593439 / 95627485572397475823304312319821800419648939687370892232934400000000000000000000000000000000000000000000) * (r - (18 / 5)) ^ 20 * ((263 / 50) - r) ^ 10 +
      (6378291054843422282058449983669514100136234621354653182563177454888725709469039658069952733457844356293885176864409 / 239068713930993689558260780799554501049122349218427230582336000000000000000000000000000000000000000000000) * (r - (18 / 5)) ^ 21 * ((263 / 50) - r) ^ 9 +
      (31388314880595444350741354042447355834530513812105084576832085515741127949885560202797568642175845798217200570986121 / 2390687139309936895582607807995545010491223492184272305823360000000000000000000000000000000000000000000000) * (r - (18 / 5)) ^ 22 * ((263 / 50) - r) ^ 8 +
      (8200165249533720007767819400230952108047528113688160370188560731437954399670284155997589242309734215194176772898189 / 1494179462068710559739129879997215631557014682615170191139600000000000000000000000000000000000000000000000) * (r - (18 / 5)) ^ 23 * ((263 / 50) - r) ^ 7 +
      (114856032725308600143496008881392227305143303625030110018369174052505182057336705103927747782017595000462286620280389 / 59767178482748422389565195199888625262280587304606807645584000000000000000000000000000000000000000000000000) * (r - (18 / 5)) ^ 24 * ((263 / 50) - r) ^ 6 +
      (16530829410050887715639124711309300330273079226216870485739166973872172179360923271008946252525027622703899516663017 / 29883589241374211194782597599944312631140293652303403822792000000000000000000000000000000000000000000000000) * (r - (18 / 5)) ^ 25 * ((263 / 50) - r) ^ 5 +
      (1523663557010463012770189242041344187951966815560243468969395398861157029673689332902348037375262020311151283001519 / 11953435696549684477913039039977725052456117460921361529116800000000000000000000000000000000000000000000000) * (r - (18 / 5)) ^ 26 * ((263 / 50) - r) ^ 4 +
      (2702117350729273493832351033003388873128014581733783569749555531489315346126662977194216844778110286275630083291 / 119534356965496844779130390399777250524561174609213615291168000000000000000000000000000000000000000000000) * (r - (18 / 5)) ^ 27 * ((263 / 50) - r) ^ 3 +
      (34623443221516248324616794706269662920508440363705104513319816156391100156645222000612981775825681134158836477209 / 11953435696549684477913039039977725052456117460921361529116800000000000000000000000000000000000000000000000) * (r - (18 / 5)) ^ 28 * ((263 / 50) - r) ^ 2 +
      (7132335494988705771509164603974760406383103182894846946691558157717221814596296254636750671274986458863301064953 / 29883589241374211194782597599944312631140293652303403822792000000000000000000000000000000000000000000000000) * (r - (18 / 5)) ^ 29 * ((263 / 50) - r) ^ 1 +
      (567569939711392249141497081010094265800727790089160581364037006379040534780805062045715977371326557572750786071 / 59767178482748422389565195199888625262280587304606807645584000000000000000000000000000000000000000000000000) * (r - (18 / 5)) ^ 30 * ((263 / 50) - r) ^ 0 := by
    unfold devV devN devD; ring
  rw [e]
  positivity

end Itm

import Verif.Model.G16
import Verif.Spec.Constrained
import Mathlib.Tactic.IntervalCases

/-!
# C132: G2 and G16
-/

set_option linter.unusedVariables false
set_option linter.unusedSimpArgs false

namespace Props
open Model Spec

theorem g16Doc_values (x : List ℝ) (hx : x = [705.17454, 68.60000, 102.90000, 282.32493, 37.58412]) :
    g16y1 x = (2131 / 10 : ℝ) ∧ g16c1 x = (26947479 / 12500000 : ℝ) ∧ g16y2 x = (479619748 / 26947479 : ℝ) ∧ g16c2 x = (1392168686117528743622443 / 847405000000000000000 : ℝ) ∧ g16c3 x = (306130588397502497 / 2118512500000000 : ℝ) ∧ g16y3 x = (1392168686117528743622443 / 122452235359000998800000 : ℝ) ∧ g16y4 x = (26451205036233046128826417 / 122452235359000998800000 : ℝ) ∧ g16c4 x = (11707402002471277277599218404048663514417307675321463 / 7497274972208087234733176569698800720000000000000 : ℝ) ∧ g16c5 x = (6860 : ℝ) ∧ g16c6 x = (14626706254726172328970423 / 30613058839750249700000 : ℝ) ∧ g16c7 x = (5307476998772689604450984757239774396831813189239791 / 7347329472763925490038513038304824705600000000000000 : ℝ) ∧ g16y5 x = (11090129573537684613568531412806177210680917081461483388991570890177870528799 / 32132032780679032959414743041059715275078276577475569760000000000000000000 : ℝ) ∧ g16y6 x = (4262331848578038098672374763579753613358660131491137974163067509822129471201 / 32132032780679032959414743041059715275078276577475569760000000000000000000 : ℝ) ∧ g16c8 x = (3588178569141659625705959032621653739111284303217784482583252578745396235231001 / 6426406556135806591882948608211943055015655315495113952000000000000000000000 : ℝ) ∧ g16y7 x = (3588178569141659625705959032621653739111284303217784482583252578745396235231001 / 1369467237112540384730256348409965065023836147732008783171200000000000000000000 : ℝ) ∧ g16y8 x = (3588178569141659625705959032621653739111284303217784482583252578745396235231001 / 24407492100203793435971438813988959722949458888250442789696000000000000000000000 : ℝ) ∧ g16c9 x = (1538168823036564137595602812600523724477719641546877756292528418745396235231001 / 1369467237112540384730256348409965065023836147732008783171200000000000000000000 : ℝ) ∧ g16y9 x = (2378104100539346335382243896092729030208786756753914179936016197371207040106001465051 / 15381688230365641375956028126005237244777196415468777562925284187453962352310010000 : ℝ) ∧ g16y10 x = (222593524545023526099205185783555426561198122063257743329722155009466388413603 / 229514519861993092567248164578997966250559118410539784000000000000000000000 : ℝ) ∧ g16y11 x = (17063794126139666447889590047 / 15306529419875124850000000 : ℝ) ∧ g16c10 x = (123 / 7523 : ℝ) ∧ g16c11 x = (37038866335923473 / 1694810000000 : ℝ) ∧ g16c12 x = (136010113521312121483614198536695117199401850007439988609014708846883811294306997 / 45902903972398618513449632915799593250111823682107956800000000000000000000000 : ℝ) ∧ g16y12 x = (23417340697190175131117069816579272339449208174990089633293182899091796774890090856657519309071 / 1238668938313817671078142260571948100458388135942696977608217040918586961534883224320173650000 : ℝ) ∧ g16y13 x = (3626601784240681903482946975957327864400458181405731098690544026142515720293300621210563 / 1236967540835228352020195200556218307315930116325306841600907200000000000000000000000 : ℝ) ∧ g16y14 x = (1094647145288804083968711181012401078058926254743784655337679230832951599928842192373675711 / 73905282919799906118328509297597124686124057002411564302857690732664481390767578952305 : ℝ) ∧ g16c13 x = (8095854588455401403711283332518240284070441134758129174430840307267872053256888532030146876483990564249187744497963991463989260232463272742733355254127064153658155617 / 678493420984105376403562803224832241121433021897093052197978327215939675416511093320878722121576265266793095738960874862105852970889640084800000000000000000000000 : ℝ) ∧ g16y15 x = (53605006180351746524469171518779017405504252542916213450926412194250996476390488866744874461437173685321941860631508228297355117923901109107692171454339700612355921667839543 / 218162871509455571763080329666085297171942246999630856007262406132454529529826885322223210320967929566303137511916250202732029846339839160506079493310128724612355921667839543 : ℝ) ∧ g16y16 x = (37780454473641624513747100018335303911716734762859194163271636802277904113194972683856955150135366033526569659530708166486374296653130621454845331335324162162562115453807799538721247979733102849170127629939941118417973315251962722070263980759916773887568485453111 / 269860390672603160985907110774395809936609385206852684898676699508142575477971022648840662419309912223046328086015040079390199787149219498553470546375817249073026688474563866560867216425061202765675008330333799281167203321054452833409600000000000000000000000 : ℝ) ∧ g16c14 x = (-262479194932730289627791499806207199500156553634670843796303794563446563427989266899625901 / 515403142014678480008414666898424294714970881802211184000378000000000000000000000 : ℝ) ∧ g16y17 x = (211670710912346306262473158107854621895193905305498115090824832311868293386214052422060667132374452121379993948724068464395214177663398546097188205180098077015763818471 / 17525009963664343276901312197669495685022717001952510148418463135583547592415301721423676441131937559959254909470421614584266900880924011216500000000000000000000 : ℝ) ∧ g16c15 x = (373998043778532192452078749422408357024410724355573947955312743716408492994496821880069968159163435557223060284780886732020627513580095339721682281668295226162932234996481371 / 59421983444223851634371838536517472062463946624304979351740505649096654322798059056727113784233538529319843120504572385796732448307942609383795212400000000000000000000000 : ℝ) ∧ g16c16 x = (8427341904024403905367620019076553147744215785695532972806278316265378464080322058819921440921409549490286069729202262476752719393915568110048891548635730313797694746685432688 / 9090119646227315490128347069420220715497593624984619000302600255518938730409453555092633763373663731929297396329843758447167910264159965021086645554588696858848163402826647625 : ℝ) ∧ g16c17 x = (14781056583959981223665701859519424937224811400482312860571538146532896278153515790461 / 76908441151828206879780140630026186223885982077343887814626420937269811761550050000 : ℝ) := by
  subst hx
  have hy1 : g16y1 [705.17454, 68.60000, 102.90000, 282.32493, 37.58412] = (2131 / 10 : ℝ) := by
    rw [g16y1]
    norm_num [col]
  have hc1 : g16c1 [705.17454, 68.60000, 102.90000, 282.32493, 37.58412] = (26947479 / 12500000 : ℝ) := by
    rw [g16c1]
    norm_num [col]
  have hy2 : g16y2 [705.17454, 68.60000, 102.90000, 282.32493, 37.58412] = (479619748 / 26947479 : ℝ) := by
    rw [g16y2, hc1]
    norm_num [col]
  have hc2 : g16c2 [705.17454, 68.60000, 102.90000, 282.32493, 37.58412] = (1392168686117528743622443 / 847405000000000000000 : ℝ) := by
    rw [g16c2, hy2]
    norm_num [col]
  have hc3 : g16c3 [705.17454, 68.60000, 102.90000, 282.32493, 37.58412] = (306130588397502497 / 2118512500000000 : ℝ) := by
    rw [g16c3, hy2]
    norm_num [col]
  have hy3 : g16y3 [705.17454, 68.60000, 102.90000, 282.32493, 37.58412] = (1392168686117528743622443 / 122452235359000998800000 : ℝ) := by
    rw [g16y3, hc2, hc3]
    norm_num [col]
  have hy4 : g16y4 [705.17454, 68.60000, 102.90000, 282.32493, 37.58412] = (26451205036233046128826417 / 122452235359000998800000 : ℝ) := by
    rw [g16y4, hy3]
    norm_num [col]
  have hc4 : g16c4 [705.17454, 68.60000, 102.90000, 282.32493, 37.58412] = (11707402002471277277599218404048663514417307675321463 / 7497274972208087234733176569698800720000000000000 : ℝ) := by
    rw [g16c4, hy3, hy4]
    norm_num [col]
  have hc5 : g16c5 [705.17454, 68.60000, 102.90000, 282.32493, 37.58412] = (6860 : ℝ) := by
    rw [g16c5]
    norm_num [col]
  have hc6 : g16c6 [705.17454, 68.60000, 102.90000, 282.32493, 37.58412] = (14626706254726172328970423 / 30613058839750249700000 : ℝ) := by
    rw [g16c6, hy3, hy4]
    norm_num [col]
  have hc7 : g16c7 [705.17454, 68.60000, 102.90000, 282.32493, 37.58412] = (5307476998772689604450984757239774396831813189239791 / 7347329472763925490038513038304824705600000000000000 : ℝ) := by
    rw [g16c7, hc4, hc5]
    norm_num [col]
  have hy5 : g16y5 [705.17454, 68.60000, 102.90000, 282.32493, 37.58412] = (11090129573537684613568531412806177210680917081461483388991570890177870528799 / 32132032780679032959414743041059715275078276577475569760000000000000000000 : ℝ) := by
    rw [g16y5, hc6, hc7]
    norm_num [col]
  have hy6 : g16y6 [705.17454, 68.60000, 102.90000, 282.32493, 37.58412] = (4262331848578038098672374763579753613358660131491137974163067509822129471201 / 32132032780679032959414743041059715275078276577475569760000000000000000000 : ℝ) := by
    rw [g16y6, hy5, hy4, hy3]
    norm_num [col]
  have hc8 : g16c8 [705.17454, 68.60000, 102.90000, 282.32493, 37.58412] = (3588178569141659625705959032621653739111284303217784482583252578745396235231001 / 6426406556135806591882948608211943055015655315495113952000000000000000000000 : ℝ) := by
    rw [g16c8, hy5, hy4]
    norm_num [col]
  have hy7 : g16y7 [705.17454, 68.60000, 102.90000, 282.32493, 37.58412] = (3588178569141659625705959032621653739111284303217784482583252578745396235231001 / 1369467237112540384730256348409965065023836147732008783171200000000000000000000 : ℝ) := by
    rw [g16y7, hc8, hy1]
    norm_num [col]
  have hy8 : g16y8 [705.17454, 68.60000, 102.90000, 282.32493, 37.58412] = (3588178569141659625705959032621653739111284303217784482583252578745396235231001 / 24407492100203793435971438813988959722949458888250442789696000000000000000000000 : ℝ) := by
    rw [g16y8, hc8]
    norm_num [col]
  have hc9 : g16c9 [705.17454, 68.60000, 102.90000, 282.32493, 37.58412] = (1538168823036564137595602812600523724477719641546877756292528418745396235231001 / 1369467237112540384730256348409965065023836147732008783171200000000000000000000 : ℝ) := by
    rw [g16c9, hy7, hy8]
    norm_num [col]
  have hy9 : g16y9 [705.17454, 68.60000, 102.90000, 282.32493, 37.58412] = (2378104100539346335382243896092729030208786756753914179936016197371207040106001465051 / 15381688230365641375956028126005237244777196415468777562925284187453962352310010000 : ℝ) := by
    rw [g16y9, hc9, hy1]
    norm_num [col]
  have hy10 : g16y10 [705.17454, 68.60000, 102.90000, 282.32493, 37.58412] = (222593524545023526099205185783555426561198122063257743329722155009466388413603 / 229514519861993092567248164578997966250559118410539784000000000000000000000 : ℝ) := by
    rw [g16y10, hy5, hy4, hy3, hy6]
    norm_num [col]
  have hy11 : g16y11 [705.17454, 68.60000, 102.90000, 282.32493, 37.58412] = (17063794126139666447889590047 / 15306529419875124850000000 : ℝ) := by
    rw [g16y11, hy4, hy3]
    norm_num [col]
  have hc10 : g16c10 [705.17454, 68.60000, 102.90000, 282.32493, 37.58412] = (123 / 7523 : ℝ) := by
    rw [g16c10]
    norm_num [col]
  have hc11 : g16c11 [705.17454, 68.60000, 102.90000, 282.32493, 37.58412] = (37038866335923473 / 1694810000000 : ℝ) := by
    rw [g16c11, hy2]
    norm_num [col]
  have hc12 : g16c12 [705.17454, 68.60000, 102.90000, 282.32493, 37.58412] = (136010113521312121483614198536695117199401850007439988609014708846883811294306997 / 45902903972398618513449632915799593250111823682107956800000000000000000000000 : ℝ) := by
    rw [g16c12, hy10]
    norm_num [col]
  have hy12 : g16y12 [705.17454, 68.60000, 102.90000, 282.32493, 37.58412] = (23417340697190175131117069816579272339449208174990089633293182899091796774890090856657519309071 / 1238668938313817671078142260571948100458388135942696977608217040918586961534883224320173650000 : ℝ) := by
    rw [g16y12, hc10, hc11, hc12]
    norm_num [col]
  have hy13 : g16y13 [705.17454, 68.60000, 102.90000, 282.32493, 37.58412] = (3626601784240681903482946975957327864400458181405731098690544026142515720293300621210563 / 1236967540835228352020195200556218307315930116325306841600907200000000000000000000000 : ℝ) := by
    rw [g16y13, hc12, hy2]
    norm_num [col]
  have hy14 : g16y14 [705.17454, 68.60000, 102.90000, 282.32493, 37.58412] = (1094647145288804083968711181012401078058926254743784655337679230832951599928842192373675711 / 73905282919799906118328509297597124686124057002411564302857690732664481390767578952305 : ℝ) := by
    rw [g16y14, hy9]
    norm_num [col]
  have hc13 : g16c13 [705.17454, 68.60000, 102.90000, 282.32493, 37.58412] = (8095854588455401403711283332518240284070441134758129174430840307267872053256888532030146876483990564249187744497963991463989260232463272742733355254127064153658155617 / 678493420984105376403562803224832241121433021897093052197978327215939675416511093320878722121576265266793095738960874862105852970889640084800000000000000000000000 : ℝ) := by
    rw [g16c13, hy10, hy14]
    norm_num [col]
  have hy15 : g16y15 [705.17454, 68.60000, 102.90000, 282.32493, 37.58412] = (53605006180351746524469171518779017405504252542916213450926412194250996476390488866744874461437173685321941860631508228297355117923901109107692171454339700612355921667839543 / 218162871509455571763080329666085297171942246999630856007262406132454529529826885322223210320967929566303137511916250202732029846339839160506079493310128724612355921667839543 : ℝ) := by
    rw [g16y15, hy13, hc13]
    norm_num [col]
  have hy16 : g16y16 [705.17454, 68.60000, 102.90000, 282.32493, 37.58412] = (37780454473641624513747100018335303911716734762859194163271636802277904113194972683856955150135366033526569659530708166486374296653130621454845331335324162162562115453807799538721247979733102849170127629939941118417973315251962722070263980759916773887568485453111 / 269860390672603160985907110774395809936609385206852684898676699508142575477971022648840662419309912223046328086015040079390199787149219498553470546375817249073026688474563866560867216425061202765675008330333799281167203321054452833409600000000000000000000000 : ℝ) := by
    rw [g16y16, hy15, hy13]
    norm_num [col]
  have hc14 : g16c14 [705.17454, 68.60000, 102.90000, 282.32493, 37.58412] = (-262479194932730289627791499806207199500156553634670843796303794563446563427989266899625901 / 515403142014678480008414666898424294714970881802211184000378000000000000000000000 : ℝ) := by
    rw [g16c14, hy10, hy2]
    norm_num [col]
  have hy17 : g16y17 [705.17454, 68.60000, 102.90000, 282.32493, 37.58412] = (211670710912346306262473158107854621895193905305498115090824832311868293386214052422060667132374452121379993948724068464395214177663398546097188205180098077015763818471 / 17525009963664343276901312197669495685022717001952510148418463135583547592415301721423676441131937559959254909470421614584266900880924011216500000000000000000000 : ℝ) := by
    rw [g16y17, hy10, hy11, hc14, hc12]
    norm_num [col]
  have hc15 : g16c15 [705.17454, 68.60000, 102.90000, 282.32493, 37.58412] = (373998043778532192452078749422408357024410724355573947955312743716408492994496821880069968159163435557223060284780886732020627513580095339721682281668295226162932234996481371 / 59421983444223851634371838536517472062463946624304979351740505649096654322798059056727113784233538529319843120504572385796732448307942609383795212400000000000000000000000 : ℝ) := by
    rw [g16c15, hy13, hy15]
    norm_num [col]
  have hc16 : g16c16 [705.17454, 68.60000, 102.90000, 282.32493, 37.58412] = (8427341904024403905367620019076553147744215785695532972806278316265378464080322058819921440921409549490286069729202262476752719393915568110048891548635730313797694746685432688 / 9090119646227315490128347069420220715497593624984619000302600255518938730409453555092633763373663731929297396329843758447167910264159965021086645554588696858848163402826647625 : ℝ) := by
    rw [g16c16, hy15]
    norm_num [col]
  have hc17 : g16c17 [705.17454, 68.60000, 102.90000, 282.32493, 37.58412] = (14781056583959981223665701859519424937224811400482312860571538146532896278153515790461 / 76908441151828206879780140630026186223885982077343887814626420937269811761550050000 : ℝ) := by
    rw [g16c17, hy9]
    norm_num [col]
  exact ⟨hy1, hc1, hy2, hc2, hc3, hy3, hy4, hc4, hc5, hc6, hc7, hy5, hy6, hc8, hy7, hy8, hc9, hy9, hy10, hy11, hc10, hc11, hc12, hy12, hy13, hy14, hc13, hy15, hy16, hc14, hy17, hc15, hc16, hc17⟩

theorem g16Better_values (x : List ℝ) (hx : x = [705.1745371, 68.6, 102.9, 282.3249316, 37.5841154]) :
    g16y1 x = (2131 / 10 : ℝ) ∧ g16c1 x = (673686987 / 312500000 : ℝ) ∧ g16y2 x = (11990493844 / 673686987 : ℝ) ∧ g16c2 x = (221354823173601179955137878520569 / 134737397400000000000000000000 : ℝ) ∧ g16c3 x = (243373821358903552747687 / 1684217467500000000000 : ℝ) ∧ g16y3 x = (221354823173601179955137878520569 / 19469905708712284219814960000000 : ℝ) ∧ g16y4 x = (4205741640298422419147619691890811 / 19469905708712284219814960000000 : ℝ) ∧ g16c4 x = (101519368894363965903127532011325405662585934235886349278807565793550601 / 65011744654504243849666120748752801412886273725974400000000000000000 : ℝ) ∧ g16c5 x = (6860 : ℝ) ∧ g16c6 x = (2325646320512452215672222873810909 / 4867476427178071054953740000000 : ℝ) ∧ g16c7 x = (322162171019040191265146576908296601145193911636288815521192434206449399 / 445980568329899112808709588336444217692399837760184384000000000000000000 : ℝ) ∧ g16y5 x = (749235267638734189092365014470805722571757650571205763188637774477934855719392739416566310754821002693691 / 2170799903325262921175981343486986171243367958593013363374850421758618990396160000000000000000000000000 : ℝ) ∧ g16y6 x = (287957800117747958969889293984466044120851947227546283698016325239886995941095851228489689245178997306309 / 2170799903325262921175981343486986171243367958593013363374850421758618990396160000000000000000000000000 : ℝ) ∧ g16c8 x = (242412850847811478282046819747283722208342549847454393757370689631127753765677779669844039840209379536044509 / 434159980665052584235196268697397234248673591718602672674970084351723798079232000000000000000000000000000 : ℝ) ∧ g16y7 x = (242412850847811478282046819747283722208342549847454393757370689631127753765677779669844039840209379536044509 / 92519491879722705700520324859415350618392342395234229547036124975352341370684339200000000000000000000000000 : ℝ) ∧ g16y8 x = (242412850847811478282046819747283722208342549847454393757370689631127753765677779669844039840209379536044509 / 1648939606565869714925275428512714695676462301347252950819536380367846985104923136000000000000000000000000000 : ℝ) ∧ g16c9 x = (103916759142817747075127000408717077835013993710914170541854937408010905419044603603284039840209379536044509 / 92519491879722705700520324859415350618392342395234229547036124975352341370684339200000000000000000000000000 : ℝ) ∧ g16y9 x = (160661735046351146363731478285469268278846623319010330320766787990023404777899457352870050736735066281010782425959 / 1039167591428177470751270004087170778350139937109141705418549374080109054190446036032840398402093795360445090000 : ℝ) ∧ g16y10 x = (15038139750125962547810785126868782172435379834586098544153927863419606488686030421348912267735536991918927 / 15505713595180449436971295310621329794595485418521524024106074441132992788544000000000000000000000000000 : ℝ) ∧ g16y11 x = (2713143295108516907572871971384670101 / 2433738213589035527476870000000000 : ℝ) ∧ g16c10 x = (123 / 7523 : ℝ) ∧ g16c11 x = (29445898969595094400183 / 1347373974000000000 : ℝ) ∧ g16c12 x = (9188672962909174142028075846371171038234996560323834610319418991497245609550702453848433541279371861391866473 / 3101142719036089887394259062124265958919097083704304804821214888226598557708800000000000000000000000000000 : ℝ) ∧ g16y12 x = (284002815914276411427357029316791461194135031693413374835003066945065612037767219123215657720037655390459578581243851427270659893 / 15022434573579605463388471403485661755608357823420999181661306146779370753399796482476408461738699575066853385878771025830000000 : ℝ) ∧ g16y13 x = (6125216995717200881936099332499920207459179797346586948825018790356064201851474530863560147094240154553668150501686851 / 2089199494644410940499807668659942553450872291081239902889627331728918955601387095385600000000000000000000000000000 : ℝ) ∧ g16y14 x = (7395298862061249669829990241161766969612447033539543129382766723159941043908567410622072657778402294081580787734210749443 / 499294824306319548090318337039099916179665260803672636430425882415119980787945086871502206150153337718654338209705965 : ℝ) ∧ g16c13 x = (3695097260746043033407415126971405006090689089880173262700331603716294416158419980563161550460994951702915573159405094144133117003161432712472786434893314002110824281228364148423143073161307098558527844345594105047495174322289 / 309676901809989317246682500066394614755993589964755296747475701284558790789218773814438857430816051331708668307838354997253801955555327080570888268585384372729939763112619071099689997266418598400000000000000000000000000000 : ℝ) ∧ g16y15 x = (203885942914313484680143987900249441965203825821142086880587200379013388748102571074091923292666266687435872432517111084675813744903632455315056883004164081191745181457893253641795516162663946460816508124230568638136171962074214451081 / 829779646754651701116193946782529424569984327238382038795515294002836129342230023795398289374772050011649237199045896195470794440259431692889676270939249458842317616702392434030002686009320514736535555537596093118136171962074214451081 : ℝ) ∧ g16y16 x = (11557168124279392044403135179817773923864857459311654566509490969301242539568691791262122445307732764069604173492583594054960024472342098940701838296131821350137772835323441312345895541369189554823260690587999014402306808971919364351423106885316021544152989398067277642414444126938730395728633705008459288613266595421098204197301194845213153588479564069 / 82551200888858864699569281507558196480386082780072320569580450777881508135299582069499602803531555664963684966510555409326641733722657507724110643864315113203307880399532360632953199104125214027970884639272796814539442450130102296411671859767984849610501401765592138583762435790934229207462566761163383432068537715801600000000000000000000000000000 : ℝ) ∧ g16c14 x = (-63331307078418491210309924538250995208041364207899403046120102865067032088387180202554774065981872809333409620617018411 / 124357112776453032172607599324996580562551922088169041838668293555292794976273041392000000000000000000000000000 : ℝ) ∧ g16y17 x = (24152604450536210825018828505754436055251772475094982717135325213078902285992645813063118086179527617183418364631030110720113217094078846484700418710346870664678195077530440379355491565455584691383119173867485447791959494634403 / 1999684469850271747026707859082349922241622654694446283193823819158690108337723072190838723316202835832725301119051991810506641621584781975870296028495144743593202670839345694085285372715588228000000000000000000000000000 : ℝ) ∧ g16c15 x = (474165569579386249792243467555553872523308384047534527693918234380127913562202169373989973296281665247128606064555739452018748675065150052057447453925511744596374956723647525112095584504547335837879126573582082881863828037925785548919 / 75336913500285142924871130549989915099552327877519517132090874047316214946804942266485820623826592929101387613421392449854777568847946965700583429125004070942142641337134530220626558377829810107754646400000000000000000000000000000 : ℝ) ∧ g16c16 x = (96159856389853721132821805744966610813789492834993933534528262538280180861898511887096690837378578899738366214541793677354146395714474652640420205919241658012982764773719763068378774214646475852168420933007509672870536254179562293651888 / 103722455844331462639524243347816178071248040904797754849439411750354516167778752974424786171846506251456154649880737024433849305032428961611209533867406182355289702087799054253750335751165064342066944442199511639767021495259276806385125 : ℝ) ∧ g16c17 x = (99858964861263909618063667407819983235933052160734527286085176483023996157589017374300441230030667543730867641941193 / 519583795714088735375635002043585389175069968554570852709274687040054527095223018016420199201046897680222545000000 : ℝ) := by
  subst hx
  have hy1 : g16y1 [705.1745371, 68.6, 102.9, 282.3249316, 37.5841154] = (2131 / 10 : ℝ) := by
    rw [g16y1]
    norm_num [col]
  have hc1 : g16c1 [705.1745371, 68.6, 102.9, 282.3249316, 37.5841154] = (673686987 / 312500000 : ℝ) := by
    rw [g16c1]
    norm_num [col]
  have hy2 : g16y2 [705.1745371, 68.6, 102.9, 282.3249316, 37.5841154] = (11990493844 / 673686987 : ℝ) := by
    rw [g16y2, hc1]
    norm_num [col]
  have hc2 : g16c2 [705.1745371, 68.6, 102.9, 282.3249316, 37.5841154] = (221354823173601179955137878520569 / 134737397400000000000000000000 : ℝ) := by
    rw [g16c2, hy2]
    norm_num [col]
  have hc3 : g16c3 [705.1745371, 68.6, 102.9, 282.3249316, 37.5841154] = (243373821358903552747687 / 1684217467500000000000 : ℝ) := by
    rw [g16c3, hy2]
    norm_num [col]
  have hy3 : g16y3 [705.1745371, 68.6, 102.9, 282.3249316, 37.5841154] = (221354823173601179955137878520569 / 19469905708712284219814960000000 : ℝ) := by
    rw [g16y3, hc2, hc3]
    norm_num [col]
  have hy4 : g16y4 [705.1745371, 68.6, 102.9, 282.3249316, 37.5841154] = (4205741640298422419147619691890811 / 19469905708712284219814960000000 : ℝ) := by
    rw [g16y4, hy3]
    norm_num [col]
  have hc4 : g16c4 [705.1745371, 68.6, 102.9, 282.3249316, 37.5841154] = (101519368894363965903127532011325405662585934235886349278807565793550601 / 65011744654504243849666120748752801412886273725974400000000000000000 : ℝ) := by
    rw [g16c4, hy3, hy4]
    norm_num [col]
  have hc5 : g16c5 [705.1745371, 68.6, 102.9, 282.3249316, 37.5841154] = (6860 : ℝ) := by
    rw [g16c5]
    norm_num [col]
  have hc6 : g16c6 [705.1745371, 68.6, 102.9, 282.3249316, 37.5841154] = (2325646320512452215672222873810909 / 4867476427178071054953740000000 : ℝ) := by
    rw [g16c6, hy3, hy4]
    norm_num [col]
  have hc7 : g16c7 [705.1745371, 68.6, 102.9, 282.3249316, 37.5841154] = (322162171019040191265146576908296601145193911636288815521192434206449399 / 445980568329899112808709588336444217692399837760184384000000000000000000 : ℝ) := by
    rw [g16c7, hc4, hc5]
    norm_num [col]
  have hy5 : g16y5 [705.1745371, 68.6, 102.9, 282.3249316, 37.5841154] = (749235267638734189092365014470805722571757650571205763188637774477934855719392739416566310754821002693691 / 2170799903325262921175981343486986171243367958593013363374850421758618990396160000000000000000000000000 : ℝ) := by
    rw [g16y5, hc6, hc7]
    norm_num [col]
  have hy6 : g16y6 [705.1745371, 68.6, 102.9, 282.3249316, 37.5841154] = (287957800117747958969889293984466044120851947227546283698016325239886995941095851228489689245178997306309 / 2170799903325262921175981343486986171243367958593013363374850421758618990396160000000000000000000000000 : ℝ) := by
    rw [g16y6, hy5, hy4, hy3]
    norm_num [col]
  have hc8 : g16c8 [705.1745371, 68.6, 102.9, 282.3249316, 37.5841154] = (242412850847811478282046819747283722208342549847454393757370689631127753765677779669844039840209379536044509 / 434159980665052584235196268697397234248673591718602672674970084351723798079232000000000000000000000000000 : ℝ) := by
    rw [g16c8, hy5, hy4]
    norm_num [col]
  have hy7 : g16y7 [705.1745371, 68.6, 102.9, 282.3249316, 37.5841154] = (242412850847811478282046819747283722208342549847454393757370689631127753765677779669844039840209379536044509 / 92519491879722705700520324859415350618392342395234229547036124975352341370684339200000000000000000000000000 : ℝ) := by
    rw [g16y7, hc8, hy1]
    norm_num [col]
  have hy8 : g16y8 [705.1745371, 68.6, 102.9, 282.3249316, 37.5841154] = (242412850847811478282046819747283722208342549847454393757370689631127753765677779669844039840209379536044509 / 1648939606565869714925275428512714695676462301347252950819536380367846985104923136000000000000000000000000000 : ℝ) := by
    rw [g16y8, hc8]
    norm_num [col]
  have hc9 : g16c9 [705.1745371, 68.6, 102.9, 282.3249316, 37.5841154] = (103916759142817747075127000408717077835013993710914170541854937408010905419044603603284039840209379536044509 / 92519491879722705700520324859415350618392342395234229547036124975352341370684339200000000000000000000000000 : ℝ) := by
    rw [g16c9, hy7, hy8]
    norm_num [col]
  have hy9 : g16y9 [705.1745371, 68.6, 102.9, 282.3249316, 37.5841154] = (160661735046351146363731478285469268278846623319010330320766787990023404777899457352870050736735066281010782425959 / 1039167591428177470751270004087170778350139937109141705418549374080109054190446036032840398402093795360445090000 : ℝ) := by
    rw [g16y9, hc9, hy1]
    norm_num [col]
  have hy10 : g16y10 [705.1745371, 68.6, 102.9, 282.3249316, 37.5841154] = (15038139750125962547810785126868782172435379834586098544153927863419606488686030421348912267735536991918927 / 15505713595180449436971295310621329794595485418521524024106074441132992788544000000000000000000000000000 : ℝ) := by
    rw [g16y10, hy5, hy4, hy3, hy6]
    norm_num [col]
  have hy11 : g16y11 [705.1745371, 68.6, 102.9, 282.3249316, 37.5841154] = (2713143295108516907572871971384670101 / 2433738213589035527476870000000000 : ℝ) := by
    rw [g16y11, hy4, hy3]
    norm_num [col]
  have hc10 : g16c10 [705.1745371, 68.6, 102.9, 282.3249316, 37.5841154] = (123 / 7523 : ℝ) := by
    rw [g16c10]
    norm_num [col]
  have hc11 : g16c11 [705.1745371, 68.6, 102.9, 282.3249316, 37.5841154] = (29445898969595094400183 / 1347373974000000000 : ℝ) := by
    rw [g16c11, hy2]
    norm_num [col]
  have hc12 : g16c12 [705.1745371, 68.6, 102.9, 282.3249316, 37.5841154] = (9188672962909174142028075846371171038234996560323834610319418991497245609550702453848433541279371861391866473 / 3101142719036089887394259062124265958919097083704304804821214888226598557708800000000000000000000000000000 : ℝ) := by
    rw [g16c12, hy10]
    norm_num [col]
  have hy12 : g16y12 [705.1745371, 68.6, 102.9, 282.3249316, 37.5841154] = (284002815914276411427357029316791461194135031693413374835003066945065612037767219123215657720037655390459578581243851427270659893 / 15022434573579605463388471403485661755608357823420999181661306146779370753399796482476408461738699575066853385878771025830000000 : ℝ) := by
    rw [g16y12, hc10, hc11, hc12]
    norm_num [col]
  have hy13 : g16y13 [705.1745371, 68.6, 102.9, 282.3249316, 37.5841154] = (6125216995717200881936099332499920207459179797346586948825018790356064201851474530863560147094240154553668150501686851 / 2089199494644410940499807668659942553450872291081239902889627331728918955601387095385600000000000000000000000000000 : ℝ) := by
    rw [g16y13, hc12, hy2]
    norm_num [col]
  have hy14 : g16y14 [705.1745371, 68.6, 102.9, 282.3249316, 37.5841154] = (7395298862061249669829990241161766969612447033539543129382766723159941043908567410622072657778402294081580787734210749443 / 499294824306319548090318337039099916179665260803672636430425882415119980787945086871502206150153337718654338209705965 : ℝ) := by
    rw [g16y14, hy9]
    norm_num [col]
  have hc13 : g16c13 [705.1745371, 68.6, 102.9, 282.3249316, 37.5841154] = (3695097260746043033407415126971405006090689089880173262700331603716294416158419980563161550460994951702915573159405094144133117003161432712472786434893314002110824281228364148423143073161307098558527844345594105047495174322289 / 309676901809989317246682500066394614755993589964755296747475701284558790789218773814438857430816051331708668307838354997253801955555327080570888268585384372729939763112619071099689997266418598400000000000000000000000000000 : ℝ) := by
    rw [g16c13, hy10, hy14]
    norm_num [col]
  have hy15 : g16y15 [705.1745371, 68.6, 102.9, 282.3249316, 37.5841154] = (203885942914313484680143987900249441965203825821142086880587200379013388748102571074091923292666266687435872432517111084675813744903632455315056883004164081191745181457893253641795516162663946460816508124230568638136171962074214451081 / 829779646754651701116193946782529424569984327238382038795515294002836129342230023795398289374772050011649237199045896195470794440259431692889676270939249458842317616702392434030002686009320514736535555537596093118136171962074214451081 : ℝ) := by
    rw [g16y15, hy13, hc13]
    norm_num [col]
  have hy16 : g16y16 [705.1745371, 68.6, 102.9, 282.3249316, 37.5841154] = (11557168124279392044403135179817773923864857459311654566509490969301242539568691791262122445307732764069604173492583594054960024472342098940701838296131821350137772835323441312345895541369189554823260690587999014402306808971919364351423106885316021544152989398067277642414444126938730395728633705008459288613266595421098204197301194845213153588479564069 / 82551200888858864699569281507558196480386082780072320569580450777881508135299582069499602803531555664963684966510555409326641733722657507724110643864315113203307880399532360632953199104125214027970884639272796814539442450130102296411671859767984849610501401765592138583762435790934229207462566761163383432068537715801600000000000000000000000000000 : ℝ) := by
    rw [g16y16, hy15, hy13]
    norm_num [col]
  have hc14 : g16c14 [705.1745371, 68.6, 102.9, 282.3249316, 37.5841154] = (-63331307078418491210309924538250995208041364207899403046120102865067032088387180202554774065981872809333409620617018411 / 124357112776453032172607599324996580562551922088169041838668293555292794976273041392000000000000000000000000000 : ℝ) := by
    rw [g16c14, hy10, hy2]
    norm_num [col]
  have hy17 : g16y17 [705.1745371, 68.6, 102.9, 282.3249316, 37.5841154] = (24152604450536210825018828505754436055251772475094982717135325213078902285992645813063118086179527617183418364631030110720113217094078846484700418710346870664678195077530440379355491565455584691383119173867485447791959494634403 / 1999684469850271747026707859082349922241622654694446283193823819158690108337723072190838723316202835832725301119051991810506641621584781975870296028495144743593202670839345694085285372715588228000000000000000000000000000 : ℝ) := by
    rw [g16y17, hy10, hy11, hc14, hc12]
    norm_num [col]
  have hc15 : g16c15 [705.1745371, 68.6, 102.9, 282.3249316, 37.5841154] = (474165569579386249792243467555553872523308384047534527693918234380127913562202169373989973296281665247128606064555739452018748675065150052057447453925511744596374956723647525112095584504547335837879126573582082881863828037925785548919 / 75336913500285142924871130549989915099552327877519517132090874047316214946804942266485820623826592929101387613421392449854777568847946965700583429125004070942142641337134530220626558377829810107754646400000000000000000000000000000 : ℝ) := by
    rw [g16c15, hy13, hy15]
    norm_num [col]
  have hc16 : g16c16 [705.1745371, 68.6, 102.9, 282.3249316, 37.5841154] = (96159856389853721132821805744966610813789492834993933534528262538280180861898511887096690837378578899738366214541793677354146395714474652640420205919241658012982764773719763068378774214646475852168420933007509672870536254179562293651888 / 103722455844331462639524243347816178071248040904797754849439411750354516167778752974424786171846506251456154649880737024433849305032428961611209533867406182355289702087799054253750335751165064342066944442199511639767021495259276806385125 : ℝ) := by
    rw [g16c16, hy15]
    norm_num [col]
  have hc17 : g16c17 [705.1745371, 68.6, 102.9, 282.3249316, 37.5841154] = (99858964861263909618063667407819983235933052160734527286085176483023996157589017374300441230030667543730867641941193 / 519583795714088735375635002043585389175069968554570852709274687040054527095223018016420199201046897680222545000000 : ℝ) := by
    rw [g16c17, hy9]
    norm_num [col]
  exact ⟨hy1, hc1, hy2, hc2, hc3, hy3, hy4, hc4, hc5, hc6, hc7, hy5, hy6, hc8, hy7, hy8, hc9, hy9, hy10, hy11, hc10, hc11, hc12, hy12, hy13, hy14, hc13, hy15, hy16, hc14, hy17, hc15, hc16, hc17⟩


/-- C132: the documented solution of G16 is within the bounds and satisfies 36 constraints, but misses the third and the fourth; it is worse than a feasible solution. -/
theorem C132_g16_refuted :
    Within g16Problem.xl g16Problem.xu g16Set ∧
    (∀ i, i < 38 → i ≠ 2 → i ≠ 3 → (g16Problem.G g16Set).getD i 0 ≤ 0) ∧
    (0 < (g16Problem.G g16Set).getD 2 0 ∧ (g16Problem.G g16Set).getD 2 0 < 1 / 10 ^ 7) ∧
    (1 / 10 ^ 6 < (g16Problem.G g16Set).getD 3 0 ∧ (g16Problem.G g16Set).getD 3 0 < 1 / 10 ^ 5) ∧
    ¬ g16Problem.Feasible g16Set ∧
    ∃ y, g16Problem.Feasible y ∧ g16Problem.F y < g16Problem.F g16Set := by
  obtain ⟨hy1, hc1, hy2, hc2, hc3, hy3, hy4, hc4, hc5, hc6, hc7, hy5, hy6, hc8, hy7, hy8, hc9, hy9, hy10, hy11, hc10, hc11, hc12, hy12, hy13, hy14, hc13, hy15, hy16, hc14, hy17, hc15, hc16, hc17⟩ := g16Doc_values g16Set rfl
  have h2 : 0 < (g16Problem.G g16Set).getD 2 0 ∧ (g16Problem.G g16Set).getD 2 0 < 1 / 10 ^ 7 := by
    show 0 < 3496 * (g16y2 g16Set / g16c12 g16Set) - 21 ∧ 3496 * (g16y2 g16Set / g16c12 g16Set) - 21 < 1 / 10 ^ 7
    rw [hy2, hc12]; norm_num
  have h3 : 1 / 10 ^ 6 < (g16Problem.G g16Set).getD 3 0 ∧ (g16Problem.G g16Set).getD 3 0 < 1 / 10 ^ 5 := by
    show 1 / 10 ^ 6 < 110.6 + g16y1 g16Set - (62212 / g16c17 g16Set) ∧ 110.6 + g16y1 g16Set - (62212 / g16c17 g16Set) < 1 / 10 ^ 5
    rw [hy1, hc17]; norm_num
  refine ⟨⟨rfl, ?_⟩, ?_, h2, h3, ?_, ?_⟩
  · intro i hi
    have hi' : i < 5 := hi
    interval_cases i <;> norm_num [g16Problem, g16Set]
  · intro i hi n2 n3
    have c1 : col g16Set 1 = 68.6 := by norm_num [g16Set, col]
    have c2 : col g16Set 2 = 102.9 := by norm_num [g16Set, col]
    simp only [g16Problem, hy1, hc1, hy2, hc2, hc3, hy3, hy4, hc4, hc5, hc6, hc7, hy5, hy6, hc8, hy7, hy8, hc9, hy9, hy10, hy11, hc10, hc11, hc12, hy12, hy13, hy14, hc13, hy15, hy16, hc14, hy17, hc15, hc16, hc17, c1, c2]
    interval_cases i <;> first | exact absurd rfl n2 | exact absurd rfl n3 | norm_num
  · rintro ⟨-, hg, -⟩
    have := hg ((g16Problem.G g16Set).getD 2 0) (by simp [g16Problem])
    linarith [h2.1]
  · refine ⟨[705.1745371, 68.6, 102.9, 282.3249316, 37.5841154], ⟨⟨rfl, ?_⟩, ?_, by simp [g16Problem]⟩, ?_⟩
    · intro i hi
      have hi' : i < 5 := hi
      interval_cases i <;> norm_num [g16Problem]
    · clear hy1 hc1 hy2 hc2 hc3 hy3 hy4 hc4 hc5 hc6 hc7 hy5 hy6 hc8 hy7 hy8 hc9 hy9 hy10 hy11 hc10 hc11 hc12 hy12 hy13 hy14 hc13 hy15 hy16 hc14 hy17 hc15 hc16 hc17 h2 h3
      obtain ⟨hy1, hc1, hy2, hc2, hc3, hy3, hy4, hc4, hc5, hc6, hc7, hy5, hy6, hc8, hy7, hy8, hc9, hy9, hy10, hy11, hc10, hc11, hc12, hy12, hy13, hy14, hc13, hy15, hy16, hc14, hy17, hc15, hc16, hc17⟩ := g16Better_values _ rfl
      have c1 : col [705.1745371, 68.6, 102.9, 282.3249316, 37.5841154] 1 = 68.6 := by norm_num [col]
      have c2 : col [705.1745371, 68.6, 102.9, 282.3249316, 37.5841154] 2 = 102.9 := by norm_num [col]
      simp only [g16Problem, hy1, hc1, hy2, hc2, hc3, hy3, hy4, hc4, hc5, hc6, hc7, hy5, hy6, hc8, hy7, hy8, hc9, hy9, hy10, hy11, hc10, hc11, hc12, hy12, hy13, hy14, hc13, hy15, hy16, hc14, hy17, hc15, hc16, hc17, c1, c2, List.forall_mem_cons, List.not_mem_nil, false_implies, implies_true, and_true]
      norm_num
    · have hd : g16Problem.F g16Set > -1.90515525723 := by
        simp only [g16Problem, hy1, hc1, hy2, hc2, hc3, hy3, hy4, hc4, hc5, hc6, hc7, hy5, hy6, hc8, hy7, hy8, hc9, hy9, hy10, hy11, hc10, hc11, hc12, hy12, hy13, hy14, hc13, hy15, hy16, hc14, hy17, hc15, hc16, hc17]
        norm_num
      clear hy1 hc1 hy2 hc2 hc3 hy3 hy4 hc4 hc5 hc6 hc7 hy5 hy6 hc8 hy7 hy8 hc9 hy9 hy10 hy11 hc10 hc11 hc12 hy12 hy13 hy14 hc13 hy15 hy16 hc14 hy17 hc15 hc16 hc17 h2 h3
      obtain ⟨hy1, hc1, hy2, hc2, hc3, hy3, hy4, hc4, hc5, hc6, hc7, hy5, hy6, hc8, hy7, hy8, hc9, hy9, hy10, hy11, hc10, hc11, hc12, hy12, hy13, hy14, hc13, hy15, hy16, hc14, hy17, hc15, hc16, hc17⟩ := g16Better_values _ rfl
      refine lt_trans ?_ hd
      simp only [g16Problem, hy1, hc1, hy2, hc2, hc3, hy3, hy4, hc4, hc5, hc6, hc7, hy5, hy6, hc8, hy7, hy8, hc9, hy9, hy10, hy11, hc10, hc11, hc12, hy12, hy13, hy14, hc13, hy15, hy16, hc14, hy17, hc15, hc16, hc17]
      norm_num

/-- C132: the documented solutions of G2 with 2, 10 and 20 variables are feasible; for other numbers of variables there is none. -/
theorem C132_g2_partial (n : ℕ) :
    (∀ x, g2Set n = some x → (g2Problem n).Feasible x) ∧ ((g2Set n).isSome ↔ n = 2 ∨ n = 10 ∨ n = 20) := by
  constructor
  · intro x hx
    unfold g2Set at hx
    split_ifs at hx with h1 h2 h3
    all_goals
      subst_vars
      simp only [Option.some.injEq] at hx
      subst hx
      refine ⟨⟨by simp [g2Problem], fun i hi => ?_⟩, ?_, by simp [g2Problem]⟩
      · simp only [List.length_cons, List.length_nil] at hi
        interval_cases i <;> norm_num [g2Problem, List.replicate_succ]
      · simp only [g2Problem, List.forall_mem_cons, List.not_mem_nil, false_implies, implies_true, and_true, List.prod_cons, List.prod_nil, List.sum_cons, List.sum_nil]
        norm_num
  · unfold g2Set
    split_ifs <;> simp_all

end Props

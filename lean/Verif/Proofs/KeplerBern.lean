import Mathlib.Tactic

/-! Polynomial inequalities for the starter of the Kepler solver, by Bernstein coefficients. -/

namespace Jaxoplanet.Kepler

/-- Upper bound, left half. -/
theorem bern_up_left {E : ℝ} (h0 : 0 ≤ E) (h1 : E ≤ (8 / 5)) :
    0 ≤ (1231923 / 20000000) + (-272769 / 40000000) * E + (-14672723 / 160000000) * E ^ 2 + (21055169 / 320000000) *
    E ^ 3 + (-296753339 / 26880000000) * E ^ 4 + (-85038983 / 53760000000) * E ^ 5 + (794393339 / 1935360000000) * E
    ^ 6 + (85038983 / 3870720000000) * E ^ 7 + (-647719 / 96768000000) * E ^ 8 + (-12989 / 66528000000) * E ^ 9 +
    (331337 / 5189184000000) * E ^ 10 + (12989 / 10378368000000) * E ^ 11 + (-466337 / 1089728640000000) * E ^ 12 +
    (-12989 / 2179457280000000) * E ^ 13 + (621337 / 296406190080000000) * E ^ 14 + (12989 / 592812380160000000) * E
    ^ 15 + (-1 / 118562476032000) * E ^ 16 := by
  obtain ⟨u, rfl⟩ : ∃ u, E = 0 + u := ⟨E - 0, by ring⟩
  have hu : 0 ≤ u := by linarith
  obtain ⟨v, hv⟩ : ∃ v, v = (8 / 5) - u := ⟨_, rfl⟩
  have hv0 : 0 ≤ v := by linarith
  have h :
      0 ≤ (2406099609375 / 72057594037927936) * (u ^ 0 * v ^ 16) + (9517848046875 / 18014398509481984) * (u ^ 1 * v ^
      15) + (68292119453125 / 18014398509481984) * (u ^ 2 * v ^ 14) + (296201468859375 / 18014398509481984) * (u ^ 3
      * v ^ 13) + (1143417461065625 / 23643898043695104) * (u ^ 4 * v ^ 12) + (38727268051826875 /
      378302368699121664) * (u ^ 5 * v ^ 11) + (549330412388584625 / 3404721318292094976) * (u ^ 6 * v ^ 10) +
      (219018361854268925 / 1134907106097364992) * (u ^ 7 * v ^ 9) + (1203971972807867975 / 6809442636584189952) * (u
      ^ 8 * v ^ 8) + (1551688569668541365 / 12483978167071014912) * (u ^ 9 * v ^ 7) + (97473870250072200527 /
      1460625445547308744704) * (u ^ 10 * v ^ 6) + (197844106939319934281 / 7303127227736543723520) * (u ^ 11 * v ^
      5) + (1208952489611875313131 / 147466992098526363648000) * (u ^ 12 * v ^ 4) + (3879475914298018491097 /
      2130078774756491919360000) * (u ^ 13 * v ^ 3) + (476438678530860254142191 / 1629510262688716318310400000) * (u
      ^ 14 * v ^ 2) + (264651918856918142231573 / 8147551313443581591552000000) * (u ^ 15 * v ^ 1) +
      (4990888120505662301419 / 2506938865674948182016000000) * (u ^ 16 * v ^ 0) := by positivity
  refine h.trans_eq ?_
  rw [hv]
  ring

/-- Upper bound, right half. -/
theorem bern_up_right {E : ℝ} (h0 : (8 / 5) ≤ E) (h1 : E ≤ (16 / 5)) :
    0 ≤ (1231923 / 20000000) + (-272769 / 40000000) * E + (-14672723 / 160000000) * E ^ 2 + (21055169 / 320000000) *
    E ^ 3 + (-296753339 / 26880000000) * E ^ 4 + (-85038983 / 53760000000) * E ^ 5 + (794393339 / 1935360000000) * E
    ^ 6 + (85038983 / 3870720000000) * E ^ 7 + (-647719 / 96768000000) * E ^ 8 + (-12989 / 66528000000) * E ^ 9 +
    (331337 / 5189184000000) * E ^ 10 + (12989 / 10378368000000) * E ^ 11 + (-466337 / 1089728640000000) * E ^ 12 +
    (-12989 / 2179457280000000) * E ^ 13 + (621337 / 296406190080000000) * E ^ 14 + (12989 / 592812380160000000) * E
    ^ 15 + (-1 / 118562476032000) * E ^ 16 := by
  obtain ⟨u, rfl⟩ : ∃ u, E = (8 / 5) + u := ⟨E - (8 / 5), by ring⟩
  have hu : 0 ≤ u := by linarith
  obtain ⟨v, hv⟩ : ∃ v, v = (8 / 5) - u := ⟨_, rfl⟩
  have hv0 : 0 ≤ v := by linarith
  have h :
      0 ≤ (4990888120505662301419 / 2506938865674948182016000000) * (u ^ 0 * v ^ 16) + (7709104414414264761091 /
      246895494346775199744000000) * (u ^ 1 * v ^ 15) + (63669179855302576970783 / 232787180384102331187200000) * (u
      ^ 2 * v ^ 14) + (243198995214315240415649 / 148137296608065119846400000) * (u ^ 3 * v ^ 13) +
      (2153235572615297026133 / 307222900205263257600000) * (u ^ 4 * v ^ 12) + (176754593150493895217264183 /
      8147551313443581591552000000) * (u ^ 5 * v ^ 11) + (2751061138339128535046479 / 55425519139071983616000000) *
      (u ^ 6 * v ^ 10) + (5149442568259091433323677 / 60352231951433937715200000) * (u ^ 7 * v ^ 9) +
      (17288156586913334699625467 / 155191453589401554124800000) * (u ^ 8 * v ^ 8) + (180793667026019275480090693 /
      1629510262688716318310400000) * (u ^ 9 * v ^ 7) + (228288987815950183789575397 / 2715850437814527197184000000)
      * (u ^ 10 * v ^ 6) + (390275906574240593403153941 / 8147551313443581591552000000) * (u ^ 11 * v ^ 5) +
      (74013329685561674388227 / 3686674802463159091200000) * (u ^ 12 * v ^ 4) + (461643382601652213901381 /
      77595726794700777062400000) * (u ^ 13 * v ^ 3) + (1895224477073921801304683 / 1629510262688716318310400000) *
      (u ^ 14 * v ^ 2) + (27398333969193357254671 / 208911572139579015168000000) * (u ^ 15 * v ^ 1) +
      (22140131544970893547099 / 3621133917086036262912000000) * (u ^ 16 * v ^ 0) := by positivity
  refine h.trans_eq ?_
  rw [hv]
  ring

/-- Lower bound, left. -/
theorem bern_lo_left {E : ℝ} (h0 : 0 ≤ E) (h1 : E ≤ (5 / 2)) :
    0 ≤ (2035299 / 40000000) + (-6124899 / 320000000) * E ^ 2 + (-9093 / 16000000) * E ^ 3 + (720325493 /
    53760000000) * E ^ 4 + (-3400349 / 640000000) * E ^ 5 + (-235006499 / 552960000000) * E ^ 6 + (8436139 /
    21504000000) * E ^ 7 + (783019 / 118272000000) * E ^ 8 + (-111500531 / 7741440000000) * E ^ 9 + (-97583 /
    1482624000000) * E ^ 10 + (604674541 / 2384363520000000) * E ^ 11 + (953081 / 2179457280000000) * E ^ 12 +
    (-16905619 / 5635768320000000) * E ^ 13 + (-1 / 435891456000) * E ^ 14 + (43733 / 1743565824000000) * E ^ 15 +
    (-433 / 2905943040000000) * E ^ 17 + (433 / 732297646080000000) * E ^ 19 := by
  obtain ⟨u, rfl⟩ : ∃ u, E = 0 + u := ⟨E - 0, by ring⟩
  have hu : 0 ≤ u := by linarith
  obtain ⟨v, hv⟩ : ∃ v, v = (5 / 2) - u := ⟨_, rfl⟩
  have hv0 : 0 ≤ v := by linarith
  have h :
      0 ≤ (2084146176 / 1490116119384765625) * (u ^ 0 * v ^ 19) + (39598777344 / 1490116119384765625) * (u ^ 1 * v ^
      18) + (351489076896 / 1490116119384765625) * (u ^ 2 * v ^ 17) + (1935875298144 / 1490116119384765625) * (u ^ 3
      * v ^ 16) + (155974986419621 / 31292438507080078125) * (u ^ 4 * v ^ 15) + (148114273846571 /
      10430812835693359375) * (u ^ 5 * v ^ 14) + (40289011032817573 / 1287460327148437500000) * (u ^ 6 * v ^ 13) +
      (494776624544327149 / 9012222290039062500000) * (u ^ 7 * v ^ 12) + (646473887373338083 /
      8261203765869140625000) * (u ^ 8 * v ^ 11) + (630663449035096349 / 6866455078125000000000) * (u ^ 9 * v ^ 10) +
      (2763179422185162156233 / 30929946899414062500000000) * (u ^ 10 * v ^ 9) + (166162293499812691915541 /
      2309436035156250000000000000) * (u ^ 11 * v ^ 8) + (123655997794942498176037 / 2598115539550781250000000000) *
      (u ^ 12 * v ^ 7) + (4236313028804544948177427 / 166279394531250000000000000000) * (u ^ 13 * v ^ 6) +
      (897714317373904840747129 / 83139697265625000000000000000) * (u ^ 14 * v ^ 5) + (584501274595719055321661 /
      166279394531250000000000000000) * (u ^ 15 * v ^ 4) + (3887955005536387403719 / 4618872070312500000000000000) *
      (u ^ 16 * v ^ 3) + (1772337190935253871237 / 12790722656250000000000000000) * (u ^ 17 * v ^ 2) +
      (88686219475568913809 / 6395361328125000000000000000) * (u ^ 18 * v ^ 1) + (8746738242051003677849 /
      13967469140625000000000000000000) * (u ^ 19 * v ^ 0) := by positivity
  refine h.trans_eq ?_
  rw [hv]
  ring

/-- Lower bound, right. -/
theorem bern_lo_right {E : ℝ} (h0 : (5 / 2) ≤ E) (h1 : E ≤ (16 / 5)) :
    0 ≤ (15184016631 / 250000000000) + (-818307 / 125000000) * E + (146943440969 / 2000000000000) * E ^ 2 +
    (-61528893 / 1000000000) * E ^ 3 + (1256176095339 / 112000000000000) * E ^ 4 + (81220217 / 56000000000) * E ^ 5 +
    (-3182676095339 / 8064000000000000) * E ^ 6 + (-81220217 / 4032000000000) * E ^ 7 + (21083972087 /
    3326400000000000) * E ^ 8 + (12989 / 69300000000) * E ^ 9 + (-1383983863 / 21621600000000000) * E ^ 10 + (-12989
    / 10810800000000) * E ^ 11 + (1946483863 / 4540536000000000000) * E ^ 12 + (12989 / 2270268000000000) * E ^ 13 +
    (-1 / 435891456000) * E ^ 14 := by
  obtain ⟨u, rfl⟩ : ∃ u, E = (5 / 2) + u := ⟨E - (5 / 2), by ring⟩
  have hu : 0 ≤ u := by linarith
  obtain ⟨v, hv⟩ : ∃ v, v = (7 / 10) - u := ⟨_, rfl⟩
  have hv0 : 0 ≤ v := by linarith
  have h :
      0 ≤ (32161080913856183463925 / 9460212566942229700608) * (u ^ 0 * v ^ 14) + (29148618329159665525775 /
      675729469067302121472) * (u ^ 1 * v ^ 13) + (342671840558383412828443 / 1351458938134604242944) * (u ^ 2 * v ^
      12) + (38716023602357752164181 / 42233091816706382592) * (u ^ 3 * v ^ 11) + (688742581134318517159709 /
      301664941547902732800) * (u ^ 4 * v ^ 10) + (4389643578016911103039819 / 1055827295417659564800) * (u ^ 5 * v ^
      9) + (788134349391321435246739 / 137477512424174422500) * (u ^ 6 * v ^ 8) + (94103429437934310107727859 /
      15397481391507535320000) * (u ^ 7 * v ^ 7) + (1791027450695336190939681967 / 351942431805886521600000) * (u ^ 8
      * v ^ 6) + (27299320453788603838430537 / 8248650745450465350000) * (u ^ 9 * v ^ 5) +
      (1369432096605725021741897867 / 824865074545046535000000) * (u ^ 10 * v ^ 4) + (5739950005191544963391308 /
      9206083421261680078125) * (u ^ 11 * v ^ 3) + (533063625996636970477327387 / 3222129197441588027343750) * (u ^
      12 * v ^ 2) + (3427194883616805160015424 / 123928046055445693359375) * (u ^ 13 * v ^ 1) +
      (24653578305321904048924592 / 11277452191045558095703125) * (u ^ 14 * v ^ 0) := by positivity
  refine h.trans_eq ?_
  rw [hv]
  ring

end Jaxoplanet.Kepler

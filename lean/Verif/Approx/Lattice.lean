import Verif.Approx.PiBits

/-!
# How near a multiple of π/2 a `float` can be

Two lattice vectors with determinant ±1 on both sides of a line bound the distance of every lattice point with a smaller abscissa.  The
vectors are convergents of `2^e * 2/π`, one pair for each exponent.
-/

namespace Verif.Approx

/-- Points of the lattice nearer the line than a convergent have a larger denominator. -/
theorem convergent {α : ℝ} {q1 p1 q2 p2 m n : Int} (hD : p1 * q2 - p2 * q1 = 1 ∨ p1 * q2 - p2 * q1 = -1) (h1 : 0 < q1) (_h2 : 0 < q2)
    (hs : 0 ≤ q1 * α - p1 ∧ q2 * α - p2 ≤ 0 ∨ q1 * α - p1 ≤ 0 ∧ 0 ≤ q2 * α - p2) (hm : 0 < m) (hm' : m < q2) :
    |q1 * α - p1| ≤ |m * α - n| := by
  obtain ⟨u, v, hu, hv⟩ : ∃ u v : Int, m = u * q1 + v * q2 ∧ n = u * p1 + v * p2 := by
    rcases hD with hD | hD
    · exact ⟨n * q2 - m * p2, m * p1 - n * q1, by linear_combination (-m) * hD, by linear_combination (-n) * hD⟩
    · exact ⟨-(n * q2 - m * p2), -(m * p1 - n * q1), by linear_combination m * hD, by linear_combination n * hD⟩
  have hu' : (m : ℝ) = u * q1 + v * q2 := by exact_mod_cast hu
  have hv' : (n : ℝ) = u * p1 + v * p2 := by exact_mod_cast hv
  have e : m * α - n = u * (q1 * α - p1) + v * (q2 * α - p2) := by rw [hu', hv']; ring
  rw [e]
  generalize q1 * α - p1 = s at *
  generalize q2 * α - p2 = t at *
  have key : u ≤ -1 ∧ 0 ≤ v ∨ 1 ≤ u ∧ v ≤ 0 := by
    rcases lt_trichotomy u 0 with hu0 | hu0 | hu0
    · left
      refine ⟨by omega, ?_⟩
      by_contra hv0
      have : u * q1 < 0 := mul_neg_of_neg_of_pos hu0 h1
      have : v * q2 ≤ 0 := mul_nonpos_of_nonpos_of_nonneg (by omega) (by omega)
      omega
    · rw [hu0, Int.zero_mul, Int.zero_add] at hu
      rcases Int.lt_or_le 0 v with hv0 | hv0
      · have : 1 * q2 ≤ v * q2 := Int.mul_le_mul_of_nonneg_right hv0 (by omega)
        omega
      · have : v * q2 ≤ 0 := mul_nonpos_of_nonpos_of_nonneg hv0 (by omega)
        omega
    · right
      refine ⟨by omega, ?_⟩
      by_contra hv0
      have : 0 < u * q1 := mul_pos hu0 h1
      have : 1 * q2 ≤ v * q2 := Int.mul_le_mul_of_nonneg_right (by omega) (by omega)
      omega
  rcases key with ⟨k1, k2⟩ | ⟨k1, k2⟩
  · have k1' : (u : ℝ) ≤ -1 := by exact_mod_cast k1
    have k2' : (0 : ℝ) ≤ v := by exact_mod_cast k2
    rcases hs with ⟨s1, s2⟩ | ⟨s1, s2⟩
    · rw [abs_of_nonneg s1, le_abs]
      right
      nlinarith
    · rw [abs_of_nonpos s1, le_abs]
      left
      nlinarith
  · have k1' : (1 : ℝ) ≤ u := by exact_mod_cast k1
    have k2' : (v : ℝ) ≤ 0 := by exact_mod_cast k2
    rcases hs with ⟨s1, s2⟩ | ⟨s1, s2⟩
    · rw [abs_of_nonneg s1, le_abs]
      left
      nlinarith
    · rw [abs_of_nonpos s1, le_abs]
      right
      nlinarith

/-- Two convergents and 2^64 times the distance of the first -/
abbrev Cert := Int × Int × Int × Int × Int

/-- The pair `(q1, p1, q2, p2, d)` certifies a distance `d / 2^64` of all denominators below 2^24 for numbers from `A / T` to `B / T` with `T = W * 2^64` -/
def Cert.check (A B W : Int) : Cert → Bool
  | (q1, p1, q2, p2, d) => decide ((p1 * q2 - p2 * q1 = 1 ∨ p1 * q2 - p2 * q1 = -1) ∧ 0 < q1 ∧ 2 ^ 24 ≤ q2 ∧ 0 ≤ d ∧
    (d * W ≤ q1 * A - p1 * (W * 2 ^ 64) ∧ q2 * B - p2 * (W * 2 ^ 64) ≤ 0 ∨ d * W ≤ p1 * (W * 2 ^ 64) - q1 * B ∧ 0 ≤ q2 * A - p2 * (W * 2 ^ 64)))

theorem Cert.sound {A B W : Int} {c : Cert} (h : c.check A B W = true) (hW : 0 < W) {α : ℝ} (hA : (A : ℝ) ≤ α * (W * 2 ^ 64)) (hB : α * (W * 2 ^ 64) ≤ B)
    {m n : Int} (hm : 0 < m) (hm' : m < 2 ^ 24) : (c.2.2.2.2 : ℝ) ≤ |m * α - n| * 2 ^ 64 := by
  obtain ⟨q1, p1, q2, p2, d⟩ := c
  have h := of_decide_eq_true h
  obtain ⟨hD, h1, h2, h3, h4⟩ := h
  have W' : (0 : ℝ) < W := by exact_mod_cast hW
  have q1' : (0 : ℝ) < q1 := by exact_mod_cast h1
  have q2' : (0 : ℝ) < q2 := by exact_mod_cast (show (0 : Int) < q2 by omega)
  have d' : (0 : ℝ) ≤ d := by exact_mod_cast h3
  have T' : (0 : ℝ) < W * 2 ^ 64 := by positivity
  have a1 : (q1 : ℝ) * A ≤ q1 * (α * (W * 2 ^ 64)) := mul_le_mul_of_nonneg_left hA q1'.le
  have a2 : (q2 : ℝ) * A ≤ q2 * (α * (W * 2 ^ 64)) := mul_le_mul_of_nonneg_left hA q2'.le
  have b1 : (q1 : ℝ) * (α * (W * 2 ^ 64)) ≤ q1 * B := mul_le_mul_of_nonneg_left hB q1'.le
  have b2 : (q2 : ℝ) * (α * (W * 2 ^ 64)) ≤ q2 * B := mul_le_mul_of_nonneg_left hB q2'.le
  have hs : (0 ≤ q1 * α - p1 ∧ q2 * α - p2 ≤ 0 ∨ q1 * α - p1 ≤ 0 ∧ 0 ≤ q2 * α - p2) ∧ (d : ℝ) ≤ |q1 * α - p1| * 2 ^ 64 := by
    rcases h4 with ⟨g1, g2⟩ | ⟨g1, g2⟩
    · have g1' : (d : ℝ) * W ≤ q1 * A - p1 * (W * 2 ^ 64) := by exact_mod_cast g1
      have g2' : (q2 : ℝ) * B - p2 * (W * 2 ^ 64) ≤ 0 := by exact_mod_cast g2
      have e1 : (d : ℝ) ≤ (q1 * α - p1) * 2 ^ 64 := by
        refine le_of_mul_le_mul_right (a := (W : ℝ)) ?_ W'
        calc (d : ℝ) * W ≤ q1 * (α * (W * 2 ^ 64)) - p1 * (W * 2 ^ 64) := by linarith
          _ = _ := by ring
      have e2 : q2 * α - p2 ≤ 0 := by
        refine le_of_mul_le_mul_right (a := (W : ℝ) * 2 ^ 64) ?_ T'
        calc (q2 * α - p2) * ((W : ℝ) * 2 ^ 64) = q2 * (α * (W * 2 ^ 64)) - p2 * (W * 2 ^ 64) := by ring
          _ ≤ 0 := by linarith
          _ = _ := by ring
      have e0 : 0 ≤ q1 * α - p1 := by
        have : 0 ≤ (q1 * α - p1) * 2 ^ 64 := by linarith
        exact nonneg_of_mul_nonneg_left this (by positivity)
      exact ⟨Or.inl ⟨e0, e2⟩, by rw [abs_of_nonneg e0]; exact e1⟩
    · have g1' : (d : ℝ) * W ≤ p1 * (W * 2 ^ 64) - q1 * B := by exact_mod_cast g1
      have g2' : (0 : ℝ) ≤ q2 * A - p2 * (W * 2 ^ 64) := by exact_mod_cast g2
      have e1 : (d : ℝ) ≤ -(q1 * α - p1) * 2 ^ 64 := by
        refine le_of_mul_le_mul_right (a := (W : ℝ)) ?_ W'
        calc (d : ℝ) * W ≤ p1 * (W * 2 ^ 64) - q1 * (α * (W * 2 ^ 64)) := by linarith
          _ = _ := by ring
      have e2 : 0 ≤ q2 * α - p2 := by
        refine le_of_mul_le_mul_right (a := (W : ℝ) * 2 ^ 64) ?_ T'
        calc 0 * ((W : ℝ) * 2 ^ 64) = 0 := by ring
          _ ≤ q2 * (α * (W * 2 ^ 64)) - p2 * (W * 2 ^ 64) := by linarith
          _ = _ := by ring
      have e0 : 0 ≤ -(q1 * α - p1) := by
        have : 0 ≤ -(q1 * α - p1) * 2 ^ 64 := by linarith
        exact nonneg_of_mul_nonneg_left this (by positivity)
      exact ⟨Or.inr ⟨by linarith, e2⟩, by rw [abs_of_nonpos (by linarith)]; exact e1⟩
  obtain ⟨hs, hd⟩ := hs
  have c := convergent (n := n) hD h1 (by omega) hs hm (lt_of_lt_of_le hm' h2)
  exact hd.trans (mul_le_mul_of_nonneg_right c (by positivity))

/-- Pairs for the exponents from −24 to 104 -/
def certs : List Cert := [
  (1, 0, 26353589, 1, 699970842189),
  (13176795, 1, 26353589, 2, 513327419165),
  (6588397, 1, 19765192, 3, 886614265212),
  (9882596, 3, 125179549, 38, 140040573119),
  (4941298, 3, 130120847, 79, 140040573119),
  (2470649, 3, 130120847, 158, 140040573119),
  (2470649, 6, 63825099, 155, 280081146239),
  (2470649, 12, 30677225, 149, 560162292479),
  (16573937, 161, 362155965, 3518, 49155107417),
  (16573937, 322, 172791014, 3357, 98310214836),
  (16573937, 644, 86395507, 3357, 196620429673),
  (16573937, 1288, 34910785, 2713, 393240859348),
  (9168424, 1425, 25742361, 4001, 677928618191),
  (4584212, 1425, 25742361, 8002, 677928618191),
  (2292106, 1425, 25742361, 16004, 677928618191),
  (1146053, 1425, 26888414, 33433, 677928618191),
  (13444207, 33433, 95255502, 236881, 190496185855),
  (13444207, 66866, 47627751, 236881, 380992371711),
  (13444207, 133732, 17091772, 170015, 761984743423),
  (8545886, 170015, 39081865, 777509, 403376307104),
  (4272943, 170015, 43354808, 1725033, 403376307104),
  (4272943, 340030, 21677404, 1725033, 806752614209),
  (10838702, 1725033, 80143857, 12755291, 224304823962),
  (5419351, 1725033, 80143857, 25510582, 224304823962),
  (5419351, 3450066, 37362253, 23785549, 448609647925),
  (15971451, 20335483, 21390802, 27235615, 759657393246),
  (10695401, 27235615, 133620862, 340262731, 137561902603),
  (10695401, 54471230, 66810431, 340262731, 275123805207),
  (10695401, 108942460, 28057515, 285791501, 550247610416),
  (8681057, 176849041, 19376458, 394733961, 831505273472),
  (9688229, 394733961, 66810431, 2722101848, 268989947360),
  (9688229, 789467922, 28561101, 2327367887, 537979894722),
  (9436436, 1537899965, 19124665, 3116835809, 856040704859),
  (4718218, 1537899965, 19124665, 6233671618, 856040704859),
  (2359109, 1537899965, 21483774, 14005243201, 856040704859),
  (10741887, 14005243201, 775774973, 1011453310402, 23635633485),
  (10741887, 28010486402, 382516543, 997448067201, 47271266971),
  (10741887, 56020972804, 185887328, 969437580799, 94542533944),
  (10741887, 112041945608, 92943664, 969437580799, 189085067889),
  (10741887, 224083891216, 46471832, 969437580799, 378170135779),
  (10741887, 448167782432, 23235916, 969437580799, 756340271560),
  (11617958, 969437580799, 219865131, 18346212019246, 81222699165),
  (5808979, 969437580799, 225674110, 37661861619291, 81222699165),
  (5808979, 1938875161598, 112837055, 37661861619291, 162445398331),
  (5808979, 3877750323196, 53514038, 35722986457693, 324890796663),
  (5808979, 7755500646392, 26757019, 35722986457693, 649781593328),
  (16282999, 43478487104085, 26757019, 71445972915386, 467214977898),
  (5237010, 27967485811301, 21520009, 114924460019471, 832348208759),
  (2618505, 27967485811301, 21520009, 229848920038942, 832348208759),
  (12069257, 257816405850243, 21520009, 459697840077884, 628184714682),
  (4725376, 201881434227641, 16794633, 717514245928127, 1036511702835),
  (2362688, 201881434227641, 16794633, 1435028491856254, 1036511702835),
  (1181344, 201881434227641, 16794633, 2870056983712508, 1036511702835),
  (590672, 201881434227641, 17385305, 5941995401652657, 1036511702835),
  (295336, 201881434227641, 17680641, 12085872237532955, 1036511702835),
  (147668, 201881434227641, 17680641, 24171744475065910, 1036511702835),
  (73834, 201881434227641, 17754475, 48545370384359461, 1036511702835),
  (36917, 201881434227641, 17791392, 97292622202946563, 1036511702835),
  (8895696, 97292622202946563, 115680965, 1265207851506760601, 155973019178),
  (4447848, 97292622202946563, 115680965, 2530415703013521202, 155973019178),
  (2223924, 97292622202946563, 117904889, 5158124028229988967, 155973019178),
  (1111962, 97292622202946563, 117904889, 10316248056459977934, 155973019178),
  (555981, 97292622202946563, 117904889, 20632496112919955868, 155973019178),
  (555981, 194585244405893126, 58674454, 20535203490717009305, 311946038358),
  (555981, 389170488811786252, 29337227, 20535203490717009305, 623892076718),
  (14946604, 20924373979528795557, 44283831, 61994780960962814167, 365824632910),
  (7473302, 20924373979528795557, 44283831, 123989561921925628334, 365824632910),
  (3736651, 20924373979528795557, 48020482, 268903497823380052225, 365824632910),
  (3736651, 41848747959057591114, 24010241, 268903497823380052225, 731649265821),
  (13873446, 310752245782437643339, 24010241, 537806995646760104450, 496232879907),
  (6936723, 310752245782437643339, 30946964, 1386366237075957852239, 496232879907),
  (15473482, 1386366237075957852239, 37883687, 3394236965716790991156, 445432663748),
  (7736741, 1386366237075957852239, 37883687, 6788473931433581982312, 445432663748),
  (15073473, 5402107694357624130073, 22810214, 8174840168509539834551, 648633528383),
  (11405107, 8174840168509539834551, 72099008, 51678416231262947432901, 242231799112),
  (11405107, 16349680337019079669102, 36049504, 51678416231262947432901, 484463598226),
  (11405107, 32699360674038159338204, 18024752, 51678416231262947432901, 968927196453),
  (9012376, 51678416231262947432901, 209677379, 1202323878435861162200230, 86108061199),
  (4506188, 51678416231262947432901, 214183567, 2456326173102985271833361, 86108061199),
  (2253094, 51678416231262947432901, 214183567, 4912652346205970543666722, 86108061199),
  (1126547, 51678416231262947432901, 214183567, 9825304692411941087333444, 86108061199),
  (1126547, 103356832462525894865802, 106528510, 9773626276180678139900543, 172216122399),
  (1126547, 206713664925051789731604, 53264255, 9773626276180678139900543, 344432244800),
  (1126547, 413427329850103579463208, 26068854, 9566912611255626350168939, 688864489602),
  (13034427, 9566912611255626350168939, 40229828, 29527592493467086209433233, 433924433204),
  (13034427, 19133825222511252700337878, 20114914, 29527592493467086209433233, 867848866409),
  (10057457, 29527592493467086209433233, 234298481, 687874685301298402008206882, 75955679589),
  (10057457, 59055184986934172418866466, 112120512, 658347092807831315798773649, 151911359179),
  (10057457, 118110369973868344837732932, 56060256, 658347092807831315798773649, 303822718360),
  (10057457, 236220739947736689675465864, 28030128, 658347092807831315798773649, 607645436721),
  (14015064, 658347092807831315798773649, 122177969, 5739218222358123905741120920, 140628461423),
  (7007532, 658347092807831315798773649, 129185501, 12136783537524079127281015489, 140628461423),
  (3503766, 658347092807831315798773649, 129185501, 24273567075048158254562030978, 140628461423),
  (1751883, 658347092807831315798773649, 130937384, 49205481242904147824922835605, 140628461423),
  (1751883, 1316694185615662631597547298, 65468692, 49205481242904147824922835605, 281256922848),
  (1751883, 2633388371231325263195094596, 32734346, 49205481242904147824922835605, 562513845697),
  (16367173, 49205481242904147824922835605, 967415090, 2908390170073807372196837489887, 18963149261),
  (16367173, 98410962485808295649845671210, 483707545, 2908390170073807372196837489887, 37926298524),
  (16367173, 196821924971616591299691342420, 233670186, 2809979207587999076546991818677, 75852597049),
  (16367173, 393643849943233182599382684840, 116835093, 2809979207587999076546991818677, 151705194100),
  (16367173, 787287699886466365198765369680, 50233960, 2416335357644765893947609133837, 303410388201),
  (16367173, 1574575399772932730397530739360, 25116980, 2416335357644765893947609133837, 606820776403),
  (12558490, 2416335357644765893947609133837, 91718113, 17647162945414460824480716281742, 195833377526),
  (6279245, 2416335357644765893947609133837, 91718113, 35294325890828921648961432563484, 195833377526),
  (6279245, 4832670715289531787895218267674, 42719434, 32877990533184155755013823429647, 391666755054),
  (6279245, 9665341430579063575790436535348, 21359717, 32877990533184155755013823429647, 783333510109),
  (13819481, 42543331963763219330804259964995, 35179198, 108299313030131530840831906824289, 510217557293),
  (13819481, 85086663927526438661608519929990, 17589599, 108299313030131530840831906824289, 1020435114588),
  (15704540, 193385976957657969502440426754279, 17589599, 216598626060263061681663813648578, 984420766251),
  (7852270, 193385976957657969502440426754279, 17589599, 433197252120526123363327627297156, 984420766251),
  (3926135, 193385976957657969502440426754279, 17589599, 866394504241052246726655254594312, 984420766251),
  (10757867, 1059780481198710216229095681348591, 17589599, 1732789008482104493453310509188624, 696305979560),
  (14173733, 2792569489680814709682406190537215, 145153196, 28598703424091541374048276733212183, 120076406176),
  (14173733, 5585138979361629419364812381074430, 72576598, 28598703424091541374048276733212183, 240152812353),
  (14173733, 11170277958723258838729624762148860, 36288299, 28598703424091541374048276733212183, 480305624708),
  (11057283, 17428425465368282535318651971063323, 25231016, 39768981382814800212777901495361043, 552077115879),
  (12615508, 39768981382814800212777901495361043, 36288299, 114394813696366165496193106932848732, 408534133537),
  (6307754, 39768981382814800212777901495361043, 42596053, 268558608775547131205164115361058507, 408534133537),
  (3153877, 39768981382814800212777901495361043, 42596053, 537117217551094262410328230722117014, 408534133537),
  (3153877, 79537962765629600425555802990722086, 19721088, 497348236168279462197550329226755971, 817068267075),
  (9860544, 497348236168279462197550329226755971, 22874965, 1153772397867818125246212264434956114, 739809725197),
  (4930272, 497348236168279462197550329226755971, 22874965, 2307544795735636250492424528869912228, 739809725197),
  (2465136, 497348236168279462197550329226755971, 22874965, 4615089591471272500984849057739824456, 739809725197),
  (1232568, 497348236168279462197550329226755971, 24107533, 9727527419110824464167248444706404883, 739809725197),
  (616284, 497348236168279462197550329226755971, 24723817, 19952403074389928390532047218639565737, 739809725197),
  (308142, 497348236168279462197550329226755971, 24723817, 39904806148779856781064094437279131474, 739809725197),
  (154071, 497348236168279462197550329226755971, 24877888, 80306960533727993024325739203785018919, 739809725197),
  (12438944, 80306960533727993024325739203785018919, 62348791, 402529499140976524046023796677378606537, 271566932828),
  (6219472, 80306960533727993024325739203785018919, 62348791, 805058998281953048092047593354757213074, 271566932828)]

/-- Distances demanded in rounding a `float` of exponent `j - 24`: for the subtraction of multiples of π/2, and for the table of 2/π -/
def needed (j : Nat) (d : Int) : Bool :=
  (29 < j || decide (2283 * (6367 * 2 ^ j + 10000) ≤ 10000 * d)) && (j < 29 || decide (17 * 2 ^ 30 ≤ d))

def checkCerts : Nat → List Cert → Bool
  | _, [] => true
  | j, c :: cs => c.check (twoDivPi * 2 ^ j) ((twoDivPi + 1) * 2 ^ j) (2 ^ 260) && needed j c.2.2.2.2 && checkCerts (j + 1) cs

theorem certs_checked : checkCerts 0 certs = true := by decide +kernel

theorem checkCerts_get {i : Nat} {cs : List Cert} (h : checkCerts i cs = true) {j : Nat} (hj : j < cs.length) :
    ∃ c : Cert, c.check (twoDivPi * 2 ^ (i + j)) ((twoDivPi + 1) * 2 ^ (i + j)) (2 ^ 260) = true ∧ needed (i + j) c.2.2.2.2 = true := by
  induction cs generalizing i j with
  | nil => exact absurd hj (by simp)
  | cons c cs ih =>
    rw [checkCerts, Bool.and_eq_true, Bool.and_eq_true] at h
    cases j with
    | zero => exact ⟨c, h.1.1, h.1.2⟩
    | succ j =>
      have := ih h.2 (j := j) (by simpa using hj)
      rw [show i + 1 + j = i + (j + 1) by omega] at this
      exact this

theorem lattice_of {T E F W : Nat} (hT : (T : ℝ) ≤ 2 / Real.pi * 2 ^ E ∧ 2 / Real.pi * 2 ^ E ≤ T + 1) (hE : E + 24 = W + 64) (j : Nat) {c : Cert}
    (h : c.check (T * 2 ^ j) ((T + 1) * 2 ^ j) (2 ^ W) = true) {m n : Int} (hm : 0 < m) (hm' : m < 2 ^ 24) :
    (c.2.2.2.2 : ℝ) ≤ |m * (2 ^ j * (2 / Real.pi) / 2 ^ 24) - n| * 2 ^ 64 := by
  have e : 2 ^ j * (2 / Real.pi) / 2 ^ 24 * (((2 ^ W : Int) : ℝ) * 2 ^ 64) = 2 / Real.pi * 2 ^ E * 2 ^ j := by
    push_cast
    rw [← pow_add, ← hE, pow_add]
    field_simp
  refine c.sound h (by positivity) ?_ ?_ hm hm'
  · rw [e]
    push_cast
    exact mul_le_mul_of_nonneg_right hT.1 (by positivity)
  · rw [e]
    push_cast
    exact mul_le_mul_of_nonneg_right hT.2 (by positivity)

/-- No `float` other than zero is near a multiple of π/2. -/
theorem lattice {j : Nat} (hj : j < 129) : ∃ d : Int, needed j d = true ∧ ∀ m n : Int, 0 < m → m < 2 ^ 24 →
    (d : ℝ) ≤ |m * (2 ^ j * (2 / Real.pi) / 2 ^ 24) - n| * 2 ^ 64 := by
  obtain ⟨c, h1, h2⟩ := checkCerts_get certs_checked (j := j) (by simpa [certs] using hj)
  rw [Nat.zero_add] at h1 h2
  exact ⟨_, h2, fun m n hm hm' => lattice_of (F := 0) two_div_pi rfl j h1 hm hm'⟩

end Verif.Approx

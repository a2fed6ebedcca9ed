import Verif.Lemmas.RosSeries
import Verif.Model.Rosenbrock
import Mathlib.Tactic.NormNum

/-!
# The weights of `rosenbrock4` with the default coefficients

Exact values of the weights of all trees with at most four nodes.
-/

namespace Verif
open BSeries Finset

/-- the coefficients of the states at which the right-hand side is evaluated -/
def rosA {K : Type} [Zero K] [One K] (C : RosCoef K) : ℕ → ℕ → K
  | 1, 0 => C.a21
  | 2, 0 => C.a31
  | 2, 1 => C.a32
  | 3, 0 => C.a41
  | 3, 1 => C.a42
  | 3, 2 => C.a43
  | 4, 0 => C.a51
  | 4, 1 => C.a52
  | 4, 2 => C.a53
  | 4, 3 => C.a54
  | 5, 0 => C.a51
  | 5, 1 => C.a52
  | 5, 2 => C.a53
  | 5, 3 => C.a54
  | 5, 4 => 1
  | _, _ => 0

/-- the coefficients of the earlier stages on the right-hand sides -/
def rosC {K : Type} [Zero K] (C : RosCoef K) : ℕ → ℕ → K
  | 1, 0 => C.c21
  | 2, 0 => C.c31
  | 2, 1 => C.c32
  | 3, 0 => C.c41
  | 3, 1 => C.c42
  | 3, 2 => C.c43
  | 4, 0 => C.c51
  | 4, 1 => C.c52
  | 4, 2 => C.c53
  | 4, 3 => C.c54
  | 5, 0 => C.c61
  | 5, 1 => C.c62
  | 5, 2 => C.c63
  | 5, 3 => C.c64
  | 5, 4 => C.c65
  | _, _ => 0

namespace RosWeights

/-- the weights with the default coefficients -/
noncomputable def T (τ : PTree Unit) (i : ℕ) : ℝ :=
  rosTree (defaultRosenbrock (K := ℝ)).gamma (rosA defaultRosenbrock) (rosC defaultRosenbrock) τ i

theorem T_eq (τ : PTree Unit) (i : ℕ) : T τ i = (1 / 4) * (weight () (fun s => ∑ j ∈ range i, rosA (defaultRosenbrock (K := ℝ)) i j * T s j) τ +
    rootWeight (fun s => T s i) τ + ∑ j ∈ range i, rosC (defaultRosenbrock (K := ℝ)) i j * T τ j) := by
  unfold T
  rw [rosTree_eq]
  congr 1
  norm_num [defaultRosenbrock, frac, lit]

theorem a10 : rosA (defaultRosenbrock (K := ℝ)) 1 0 = (193 / 125) := by norm_num [rosA, defaultRosenbrock, frac, lit]
theorem c10 : rosC (defaultRosenbrock (K := ℝ)) 1 0 = (-3543 / 625) := by norm_num [rosC, defaultRosenbrock, frac, lit]
theorem a20 : rosA (defaultRosenbrock (K := ℝ)) 2 0 = (4733392640407913 / 5000000000000000) := by norm_num [rosA, defaultRosenbrock, frac, lit]
theorem c20 : rosC (defaultRosenbrock (K := ℝ)) 2 0 = (-19440746854671 / 8000000000000) := by norm_num [rosC, defaultRosenbrock, frac, lit]
theorem a21 : rosA (defaultRosenbrock (K := ℝ)) 2 1 = (639252924745821 / 2500000000000000) := by norm_num [rosA, defaultRosenbrock, frac, lit]
theorem c21 : rosC (defaultRosenbrock (K := ℝ)) 2 1 = (-412719831418383 / 2000000000000000) := by norm_num [rosC, defaultRosenbrock, frac, lit]
theorem a30 : rosA (defaultRosenbrock (K := ℝ)) 3 0 = (3314825187068521 / 1000000000000000) := by norm_num [rosA, defaultRosenbrock, frac, lit]
theorem c30 : rosC (defaultRosenbrock (K := ℝ)) 3 0 = (-8588232465211 / 80000000000000) := by norm_num [rosC, defaultRosenbrock, frac, lit]
theorem a31 : rosA (defaultRosenbrock (K := ℝ)) 3 1 = (2896124015972201 / 1000000000000000) := by norm_num [rosA, defaultRosenbrock, frac, lit]
theorem c31 : rosC (defaultRosenbrock (K := ℝ)) 3 1 = (-1918912450204671 / 200000000000000) := by norm_num [rosC, defaultRosenbrock, frac, lit]
theorem a32 : rosA (defaultRosenbrock (K := ℝ)) 3 2 = (9986419139977817 / 10000000000000000) := by norm_num [rosA, defaultRosenbrock, frac, lit]
theorem c32 : rosC (defaultRosenbrock (K := ℝ)) 3 2 = (-127939288425601 / 6250000000000) := by norm_num [rosC, defaultRosenbrock, frac, lit]
theorem a40 : rosA (defaultRosenbrock (K := ℝ)) 4 0 = (1221224509226641 / 1000000000000000) := by norm_num [rosA, defaultRosenbrock, frac, lit]
theorem c40 : rosC (defaultRosenbrock (K := ℝ)) 4 0 = (7496443313967647 / 1000000000000000) := by norm_num [rosC, defaultRosenbrock, frac, lit]
theorem a41 : rosA (defaultRosenbrock (K := ℝ)) 4 1 = (6019134481288629 / 1000000000000000) := by norm_num [rosA, defaultRosenbrock, frac, lit]
theorem c41 : rosC (defaultRosenbrock (K := ℝ)) 4 1 = (-32021263483261 / 3125000000000) := by norm_num [rosC, defaultRosenbrock, frac, lit]
theorem a42 : rosA (defaultRosenbrock (K := ℝ)) 4 2 = (1253708332932087 / 100000000000000) := by norm_num [rosA, defaultRosenbrock, frac, lit]
theorem c42 : rosC (defaultRosenbrock (K := ℝ)) 4 2 = (-679998070563981 / 20000000000000) := by norm_num [rosC, defaultRosenbrock, frac, lit]
theorem a43 : rosA (defaultRosenbrock (K := ℝ)) 4 3 = (-137577207221179 / 200000000000000) := by norm_num [rosA, defaultRosenbrock, frac, lit]
theorem c43 : rosC (defaultRosenbrock (K := ℝ)) 4 3 = (14636136165077 / 1250000000000) := by norm_num [rosC, defaultRosenbrock, frac, lit]
theorem a50 : rosA (defaultRosenbrock (K := ℝ)) 5 0 = (1221224509226641 / 1000000000000000) := by norm_num [rosA, defaultRosenbrock, frac, lit]
theorem c50 : rosC (defaultRosenbrock (K := ℝ)) 5 0 = (4041623397960761 / 500000000000000) := by norm_num [rosC, defaultRosenbrock, frac, lit]
theorem a51 : rosA (defaultRosenbrock (K := ℝ)) 5 1 = (6019134481288629 / 1000000000000000) := by norm_num [rosA, defaultRosenbrock, frac, lit]
theorem c51 : rosC (defaultRosenbrock (K := ℝ)) 5 1 = (-7981132988064893 / 1000000000000000) := by norm_num [rosC, defaultRosenbrock, frac, lit]
theorem a52 : rosA (defaultRosenbrock (K := ℝ)) 5 2 = (1253708332932087 / 100000000000000) := by norm_num [rosA, defaultRosenbrock, frac, lit]
theorem c52 : rosC (defaultRosenbrock (K := ℝ)) 5 2 = (-3152159432874371 / 100000000000000) := by norm_num [rosC, defaultRosenbrock, frac, lit]
theorem a53 : rosA (defaultRosenbrock (K := ℝ)) 5 3 = (-137577207221179 / 200000000000000) := by norm_num [rosA, defaultRosenbrock, frac, lit]
theorem c53 : rosC (defaultRosenbrock (K := ℝ)) 5 3 = (25498914736299 / 1562500000000) := by norm_num [rosC, defaultRosenbrock, frac, lit]
theorem a54 : rosA (defaultRosenbrock (K := ℝ)) 5 4 = (1) := by norm_num [rosA, defaultRosenbrock, frac, lit]
theorem c54 : rosC (defaultRosenbrock (K := ℝ)) 5 4 = (-3029409119417027 / 500000000000000) := by norm_num [rosC, defaultRosenbrock, frac, lit]

theorem w1_0 : T (.leaf ()) 0 = (1 / 4) := by
  rw [T_eq]
  norm_num [weight, rootWeight, sum_range_succ, sum_range_zero]
theorem w1_1 : T (.leaf ()) 1 = (-1043 / 10000) := by
  rw [T_eq]
  norm_num [weight, rootWeight, sum_range_succ, sum_range_zero, w1_0, c10]
theorem w1_2 : T (.leaf ()) 2 = (8279999999999998469 / 80000000000000000000) := by
  rw [T_eq]
  norm_num [weight, rootWeight, sum_range_succ, sum_range_zero, w1_0, w1_1, c20, c21]
theorem w1_3 : T (.leaf ()) 3 = (-72400000000000308374949420404869 / 2000000000000000000000000000000000) := by
  rw [T_eq]
  norm_num [weight, rootWeight, sum_range_succ, sum_range_zero, w1_0, w1_1, w1_2, c30, c31, c32]
theorem w1_4 : T (.leaf ()) 4 = (-4659234865188505064780858559913 / 10000000000000000000000000000000000000000000000) := by
  rw [T_eq]
  norm_num [weight, rootWeight, sum_range_succ, sum_range_zero, w1_0, w1_1, w1_2, w1_3, c40, c41, c42, c43]
theorem w1_5 : T (.leaf ()) 5 = (2664288680109210613003664335970417149311838651 / 20000000000000000000000000000000000000000000000000000000000000) := by
  rw [T_eq]
  norm_num [weight, rootWeight, sum_range_succ, sum_range_zero, w1_0, w1_1, w1_2, w1_3, w1_4, c50, c51, c52, c53, c54]
theorem w2_0 : T (.graft (.leaf ()) (.leaf ())) 0 = (1 / 16) := by
  rw [T_eq]
  norm_num [weight, rootWeight, sum_range_succ, sum_range_zero, w1_0]
theorem w2_1 : T (.graft (.leaf ()) (.leaf ())) 1 = (-363 / 20000) := by
  rw [T_eq]
  norm_num [weight, rootWeight, sum_range_succ, sum_range_zero, w1_0, w1_1, w2_0, a10, c10]
theorem w2_2 : T (.graft (.leaf ()) (.leaf ())) 2 = (66145839067201846787 / 1600000000000000000000) := by
  rw [T_eq]
  norm_num [weight, rootWeight, sum_range_succ, sum_range_zero, w1_0, w1_1, w1_2, w2_0, w2_1, a20, a21, c20, c21]
theorem w2_3 : T (.graft (.leaf ()) (.leaf ())) 3 = (-68026728011667720363510739499504387 / 3200000000000000000000000000000000000) := by
  rw [T_eq]
  norm_num [weight, rootWeight, sum_range_succ, sum_range_zero, w1_0, w1_1, w1_2, w1_3, w2_0, w2_1, w2_2, a30, a31, a32, c30, c31, c32]
theorem w2_4 : T (.graft (.leaf ()) (.leaf ())) 4 = (-5434305824878168249531665626452489 / 16000000000000000000000000000000000000000000000000) := by
  rw [T_eq]
  norm_num [weight, rootWeight, sum_range_succ, sum_range_zero, w1_0, w1_1, w1_2, w1_3, w1_4, w2_0, w2_1, w2_2, w2_3, a40, a41, a42, a43, c40, c41, c42, c43]
theorem w2_5 : T (.graft (.leaf ()) (.leaf ())) 5 = (5565497543704619109364104237670305777774528590603 / 32000000000000000000000000000000000000000000000000000000000000000) := by
  rw [T_eq]
  norm_num [weight, rootWeight, sum_range_succ, sum_range_zero, w1_0, w1_1, w1_2, w1_3, w1_4, w1_5, w2_0, w2_1, w2_2, w2_3, w2_4, a50, a51, a52, a53, a54, c50, c51, c52, c53, c54]
theorem w3_0 : T (.graft (.leaf ()) (.graft (.leaf ()) (.leaf ()))) 0 = (0) := by
  rw [T_eq]
  norm_num [weight, rootWeight, sum_range_succ, sum_range_zero]
theorem w3_1 : T (.graft (.leaf ()) (.graft (.leaf ()) (.leaf ()))) 1 = (37249 / 1000000) := by
  rw [T_eq]
  norm_num [weight, rootWeight, sum_range_succ, sum_range_zero, w1_0, w3_0, a10, c10]
theorem w3_2 : T (.graft (.leaf ()) (.graft (.leaf ()) (.leaf ()))) 2 = (22758312187342703078812500000000002809 / 2500000000000000000000000000000000000000) := by
  rw [T_eq]
  norm_num [weight, rootWeight, sum_range_succ, sum_range_zero, w1_0, w1_1, w3_0, w3_1, a20, a21, c20, c21]
theorem w3_3 : T (.graft (.leaf ()) (.graft (.leaf ()) (.leaf ()))) 3 = (-93974729201544064653896365346513780923410068205239978870778086445118071 / 2560000000000000000000000000000000000000000000000000000000000000000000000) := by
  rw [T_eq]
  norm_num [weight, rootWeight, sum_range_succ, sum_range_zero, w1_0, w1_1, w1_2, w3_0, w3_1, w3_2, a30, a31, a32, c30, c31, c32]
theorem w3_4 : T (.graft (.leaf ()) (.graft (.leaf ()) (.leaf ()))) 4 = (-19362607665481485132429244209388629250538851326546694726735355183402303598326406294213704656399 / 640000000000000000000000000000000000000000000000000000000000000000000000000000000000000000000000) := by
  rw [T_eq]
  norm_num [weight, rootWeight, sum_range_succ, sum_range_zero, w1_0, w1_1, w1_2, w1_3, w3_0, w3_1, w3_2, w3_3, a40, a41, a42, a43, c40, c41, c42, c43]
theorem w3_5 : T (.graft (.leaf ()) (.graft (.leaf ()) (.leaf ()))) 5 = (-114100276182194872600019522405444000283878747417645117841786511470749534616563553049085774894227 / 1280000000000000000000000000000000000000000000000000000000000000000000000000000000000000000000000000000000000000) := by
  rw [T_eq]
  norm_num [weight, rootWeight, sum_range_succ, sum_range_zero, w1_0, w1_1, w1_2, w1_3, w1_4, w3_0, w3_1, w3_2, w3_3, w3_4, a50, a51, a52, a53, a54, c50, c51, c52, c53, c54]
theorem w4_0 : T (.graft (.graft (.leaf ()) (.leaf ())) (.leaf ())) 0 = (1 / 64) := by
  rw [T_eq]
  norm_num [weight, rootWeight, sum_range_succ, sum_range_zero, w2_0]
theorem w4_1 : T (.graft (.graft (.leaf ()) (.leaf ())) (.leaf ())) 1 = (-409 / 160000) := by
  rw [T_eq]
  norm_num [weight, rootWeight, sum_range_succ, sum_range_zero, w2_0, w2_1, w4_0, a10, c10]
theorem w4_2 : T (.graft (.graft (.leaf ()) (.leaf ())) (.leaf ())) 2 = (46739904017958184143 / 3200000000000000000000) := by
  rw [T_eq]
  norm_num [weight, rootWeight, sum_range_succ, sum_range_zero, w2_0, w2_1, w2_2, w4_0, w4_1, a20, a21, c20, c21]
theorem w4_3 : T (.graft (.graft (.leaf ()) (.leaf ())) (.leaf ())) 3 = (-406024868308811079562200545910188089 / 16000000000000000000000000000000000000) := by
  rw [T_eq]
  norm_num [weight, rootWeight, sum_range_succ, sum_range_zero, w2_0, w2_1, w2_2, w2_3, w4_0, w4_1, w4_2, a30, a31, a32, c30, c31, c32]
theorem w4_4 : T (.graft (.graft (.leaf ()) (.leaf ())) (.leaf ())) 4 = (-96266568794346271582486521923881959515964209658583 / 2560000000000000000000000000000000000000000000000000) := by
  rw [T_eq]
  norm_num [weight, rootWeight, sum_range_succ, sum_range_zero, w2_0, w2_1, w2_2, w2_3, w2_4, w4_0, w4_1, w4_2, w4_3, a40, a41, a42, a43, c40, c41, c42, c43]
theorem w4_5 : T (.graft (.graft (.leaf ()) (.leaf ())) (.leaf ())) 5 = (817116145052079565014457377496964377134260810516861 / 5120000000000000000000000000000000000000000000000000000000000000000) := by
  rw [T_eq]
  norm_num [weight, rootWeight, sum_range_succ, sum_range_zero, w2_0, w2_1, w2_2, w2_3, w2_4, w2_5, w4_0, w4_1, w4_2, w4_3, w4_4, a50, a51, a52, a53, a54, c50, c51, c52, c53, c54]
theorem w5_0 : T (.graft (.leaf ()) (.graft (.leaf ()) (.graft (.leaf ()) (.leaf ())))) 0 = (0) := by
  rw [T_eq]
  norm_num [weight, rootWeight, sum_range_succ, sum_range_zero]
theorem w5_1 : T (.graft (.leaf ()) (.graft (.leaf ()) (.graft (.leaf ()) (.leaf ())))) 1 = (7189057 / 500000000) := by
  rw [T_eq]
  norm_num [weight, rootWeight, sum_range_succ, sum_range_zero, w1_0, w5_0, a10, c10]
theorem w5_2 : T (.graft (.leaf ()) (.graft (.leaf ()) (.graft (.leaf ()) (.leaf ())))) 2 = (98342712607857085698328125000000044241749999999999851123 / 62500000000000000000000000000000000000000000000000000000000) := by
  rw [T_eq]
  norm_num [weight, rootWeight, sum_range_succ, sum_range_zero, w1_0, w1_1, w5_0, w5_1, a20, a21, c20, c21]
theorem w5_3 : T (.graft (.leaf ()) (.graft (.leaf ()) (.graft (.leaf ()) (.leaf ())))) 3 = (40901444962347302726581441541618104264806744316337968798940614973563838493647438569596682252583002207271717 / 2048000000000000000000000000000000000000000000000000000000000000000000000000000000000000000000000000000000000) := by
  rw [T_eq]
  norm_num [weight, rootWeight, sum_range_succ, sum_range_zero, w1_0, w1_1, w1_2, w5_0, w5_1, w5_2, a30, a31, a32, c30, c31, c32]
theorem w5_4 : T (.graft (.leaf ()) (.graft (.leaf ()) (.graft (.leaf ()) (.leaf ())))) 4 = (66112985661686740434963575433565263743434467438118744889404404628959686708109052806911085344293469145899611940518261308787090393670293617844151 / 256000000000000000000000000000000000000000000000000000000000000000000000000000000000000000000000000000000000000000000000000000000000000000000000) := by
  rw [T_eq]
  norm_num [weight, rootWeight, sum_range_succ, sum_range_zero, w1_0, w1_1, w1_2, w1_3, w5_0, w5_1, w5_2, w5_3, a40, a41, a42, a43, c40, c41, c42, c43]
theorem w5_5 : T (.graft (.leaf ()) (.graft (.leaf ()) (.graft (.leaf ()) (.leaf ())))) 5 = (-51602683582190716329694644711143388573001955678808053652223051323395420385067512527606140393224651794663198153899784598485520566602577605862131696781661759077 / 512000000000000000000000000000000000000000000000000000000000000000000000000000000000000000000000000000000000000000000000000000000000000000000000000000000000000) := by
  rw [T_eq]
  norm_num [weight, rootWeight, sum_range_succ, sum_range_zero, w1_0, w1_1, w1_2, w1_3, w1_4, w5_0, w5_1, w5_2, w5_3, w5_4, a50, a51, a52, a53, a54, c50, c51, c52, c53, c54]
theorem w6_0 : T (.graft (.leaf ()) (.graft (.graft (.leaf ()) (.leaf ())) (.leaf ()))) 0 = (0) := by
  rw [T_eq]
  norm_num [weight, rootWeight, sum_range_succ, sum_range_zero]
theorem w6_1 : T (.graft (.leaf ()) (.graft (.graft (.leaf ()) (.leaf ())) (.leaf ()))) 1 = (37249 / 4000000) := by
  rw [T_eq]
  norm_num [weight, rootWeight, sum_range_succ, sum_range_zero, w1_0, w2_0, w6_0, a10, c10]
theorem w6_2 : T (.graft (.leaf ()) (.graft (.graft (.leaf ()) (.leaf ())) (.leaf ()))) 2 = (5955547216837733916830602902836366047 / 2500000000000000000000000000000000000000) := by
  rw [T_eq]
  norm_num [weight, rootWeight, sum_range_succ, sum_range_zero, w1_0, w1_1, w2_0, w2_1, w6_0, w6_1, a20, a21, c20, c21]
theorem w6_3 : T (.graft (.leaf ()) (.graft (.graft (.leaf ()) (.leaf ())) (.leaf ()))) 3 = (-188116480447392347703538077960853689840863660552181922380693380083953633 / 51200000000000000000000000000000000000000000000000000000000000000000000000) := by
  rw [T_eq]
  norm_num [weight, rootWeight, sum_range_succ, sum_range_zero, w1_0, w1_1, w1_2, w2_0, w2_1, w2_2, w6_0, w6_1, w6_2, a30, a31, a32, c30, c31, c32]
theorem w6_4 : T (.graft (.leaf ()) (.graft (.graft (.leaf ()) (.leaf ())) (.leaf ()))) 4 = (71824306261469549854009810097129636998287495113747382119173644604546380043280913244207611571522423 / 1024000000000000000000000000000000000000000000000000000000000000000000000000000000000000000000000000) := by
  rw [T_eq]
  norm_num [weight, rootWeight, sum_range_succ, sum_range_zero, w1_0, w1_1, w1_2, w1_3, w2_0, w2_1, w2_2, w2_3, w6_0, w6_1, w6_2, w6_3, a40, a41, a42, a43, c40, c41, c42, c43]
theorem w6_5 : T (.graft (.leaf ()) (.graft (.graft (.leaf ()) (.leaf ())) (.leaf ()))) 5 = (-68784296620228109905477517952390437912881978521402250670867374571893751209667225788183063718459910580012618496421 / 2048000000000000000000000000000000000000000000000000000000000000000000000000000000000000000000000000000000000000000) := by
  rw [T_eq]
  norm_num [weight, rootWeight, sum_range_succ, sum_range_zero, w1_0, w1_1, w1_2, w1_3, w1_4, w2_0, w2_1, w2_2, w2_3, w2_4, w6_0, w6_1, w6_2, w6_3, w6_4, a50, a51, a52, a53, a54, c50, c51, c52, c53, c54]
theorem w7_0 : T (.graft (.graft (.leaf ()) (.leaf ())) (.graft (.leaf ()) (.leaf ()))) 0 = (0) := by
  rw [T_eq]
  norm_num [weight, rootWeight, sum_range_succ, sum_range_zero]
theorem w7_1 : T (.graft (.graft (.leaf ()) (.leaf ())) (.graft (.leaf ()) (.leaf ()))) 1 = (37249 / 4000000) := by
  rw [T_eq]
  norm_num [weight, rootWeight, sum_range_succ, sum_range_zero, w1_0, w2_0, w7_0, a10, c10]
theorem w7_2 : T (.graft (.graft (.leaf ()) (.leaf ())) (.graft (.leaf ()) (.leaf ()))) 2 = (5955547216837733916830602902836366047 / 2500000000000000000000000000000000000000) := by
  rw [T_eq]
  norm_num [weight, rootWeight, sum_range_succ, sum_range_zero, w1_0, w1_1, w2_0, w2_1, w7_0, w7_1, a20, a21, c20, c21]
theorem w7_3 : T (.graft (.graft (.leaf ()) (.leaf ())) (.graft (.leaf ()) (.leaf ()))) 3 = (-188116480447392347703538077960853689840863660552181922380693380083953633 / 51200000000000000000000000000000000000000000000000000000000000000000000000) := by
  rw [T_eq]
  norm_num [weight, rootWeight, sum_range_succ, sum_range_zero, w1_0, w1_1, w1_2, w2_0, w2_1, w2_2, w7_0, w7_1, w7_2, a30, a31, a32, c30, c31, c32]
theorem w7_4 : T (.graft (.graft (.leaf ()) (.leaf ())) (.graft (.leaf ()) (.leaf ()))) 4 = (71824306261469549854009810097129636998287495113747382119173644604546380043280913244207611571522423 / 1024000000000000000000000000000000000000000000000000000000000000000000000000000000000000000000000000) := by
  rw [T_eq]
  norm_num [weight, rootWeight, sum_range_succ, sum_range_zero, w1_0, w1_1, w1_2, w1_3, w2_0, w2_1, w2_2, w2_3, w7_0, w7_1, w7_2, w7_3, a40, a41, a42, a43, c40, c41, c42, c43]
theorem w7_5 : T (.graft (.graft (.leaf ()) (.leaf ())) (.graft (.leaf ()) (.leaf ()))) 5 = (-68784296620228109905477517952390437912881978521402250670867374571893751209667225788183063718459910580012618496421 / 2048000000000000000000000000000000000000000000000000000000000000000000000000000000000000000000000000000000000000000) := by
  rw [T_eq]
  norm_num [weight, rootWeight, sum_range_succ, sum_range_zero, w1_0, w1_1, w1_2, w1_3, w1_4, w2_0, w2_1, w2_2, w2_3, w2_4, w7_0, w7_1, w7_2, w7_3, w7_4, a50, a51, a52, a53, a54, c50, c51, c52, c53, c54]
theorem w8_0 : T (.graft (.graft (.leaf ()) (.graft (.leaf ()) (.leaf ()))) (.leaf ())) 0 = (0) := by
  rw [T_eq]
  norm_num [weight, rootWeight, sum_range_succ, sum_range_zero, w3_0]
theorem w8_1 : T (.graft (.graft (.leaf ()) (.graft (.leaf ()) (.leaf ()))) (.leaf ())) 1 = (37249 / 4000000) := by
  rw [T_eq]
  norm_num [weight, rootWeight, sum_range_succ, sum_range_zero, w3_0, w3_1, w8_0, a10, c10]
theorem w8_2 : T (.graft (.graft (.leaf ()) (.graft (.leaf ()) (.leaf ()))) (.leaf ())) 2 = (41765656568542493143125000000000002809 / 10000000000000000000000000000000000000000) := by
  rw [T_eq]
  norm_num [weight, rootWeight, sum_range_succ, sum_range_zero, w3_0, w3_1, w3_2, w8_0, w8_1, a20, a21, c20, c21]
theorem w8_3 : T (.graft (.graft (.leaf ()) (.graft (.leaf ()) (.leaf ()))) (.leaf ())) 3 = (-242131583438755248198137623063659858454365138751937773123578086445118071 / 10240000000000000000000000000000000000000000000000000000000000000000000000) := by
  rw [T_eq]
  norm_num [weight, rootWeight, sum_range_succ, sum_range_zero, w3_0, w3_1, w3_2, w3_3, w8_0, w8_1, w8_2, a30, a31, a32, c30, c31, c32]
theorem w8_4 : T (.graft (.graft (.leaf ()) (.graft (.leaf ()) (.leaf ()))) (.leaf ())) 4 = (-115811332970847696907162249963702456958583046426508314916424332450242861844981413085427454656399 / 2560000000000000000000000000000000000000000000000000000000000000000000000000000000000000000000000) := by
  rw [T_eq]
  norm_num [weight, rootWeight, sum_range_succ, sum_range_zero, w3_0, w3_1, w3_2, w3_3, w3_4, w8_0, w8_1, w8_2, w8_3, a40, a41, a42, a43, c40, c41, c42, c43]
theorem w8_5 : T (.graft (.graft (.leaf ()) (.graft (.leaf ()) (.leaf ()))) (.leaf ())) 5 = (9966022453270401535022375495843052964263013049640819014492394269578836641613703060558697513739824174850105773 / 2560000000000000000000000000000000000000000000000000000000000000000000000000000000000000000000000000000000000000) := by
  rw [T_eq]
  norm_num [weight, rootWeight, sum_range_succ, sum_range_zero, w3_0, w3_1, w3_2, w3_3, w3_4, w3_5, w8_0, w8_1, w8_2, w8_3, w8_4, a50, a51, a52, a53, a54, c50, c51, c52, c53, c54]
theorem w9_0 : T (.graft (.graft (.graft (.leaf ()) (.leaf ())) (.leaf ())) (.leaf ())) 0 = (1 / 256) := by
  rw [T_eq]
  norm_num [weight, rootWeight, sum_range_succ, sum_range_zero, w4_0]
theorem w9_1 : T (.graft (.graft (.graft (.leaf ()) (.leaf ())) (.leaf ())) (.leaf ())) 1 = (-23 / 160000) := by
  rw [T_eq]
  norm_num [weight, rootWeight, sum_range_succ, sum_range_zero, w4_0, w4_1, w9_0, a10, c10]
theorem w9_2 : T (.graft (.graft (.graft (.leaf ()) (.leaf ())) (.leaf ())) (.leaf ())) 2 = (61700953453071778421 / 12800000000000000000000) := by
  rw [T_eq]
  norm_num [weight, rootWeight, sum_range_succ, sum_range_zero, w4_0, w4_1, w4_2, w9_0, w9_1, a20, a21, c20, c21]
theorem w9_3 : T (.graft (.graft (.graft (.leaf ()) (.leaf ())) (.leaf ())) (.leaf ())) 3 = (-2051650374363261666732854247501628747 / 128000000000000000000000000000000000000) := by
  rw [T_eq]
  norm_num [weight, rootWeight, sum_range_succ, sum_range_zero, w4_0, w4_1, w4_2, w4_3, w9_0, w9_1, w9_2, a30, a31, a32, c30, c31, c32]
theorem w9_4 : T (.graft (.graft (.graft (.leaf ()) (.leaf ())) (.leaf ())) (.leaf ())) 4 = (-1973075585416635924062662626953174923081430244426711 / 51200000000000000000000000000000000000000000000000000) := by
  rw [T_eq]
  norm_num [weight, rootWeight, sum_range_succ, sum_range_zero, w4_0, w4_1, w4_2, w4_3, w4_4, w9_0, w9_1, w9_2, w9_3, a40, a41, a42, a43, c40, c41, c42, c43]
theorem w9_5 : T (.graft (.graft (.graft (.leaf ()) (.leaf ())) (.leaf ())) (.leaf ())) 5 = (247744209529720836862261931968881604817475193413438256212099796251 / 51200000000000000000000000000000000000000000000000000000000000000000) := by
  rw [T_eq]
  norm_num [weight, rootWeight, sum_range_succ, sum_range_zero, w4_0, w4_1, w4_2, w4_3, w4_4, w4_5, w9_0, w9_1, w9_2, w9_3, w9_4, a50, a51, a52, a53, a54, c50, c51, c52, c53, c54]

end RosWeights

end Verif

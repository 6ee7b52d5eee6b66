import Verif.Model.Basic
import Mathlib.Algebra.Order.Field.Basic
import Mathlib.Data.Rat.Cast.CharZero
/-
Model of src/petigarule.c: quadrature rules.  The tables below are generated from the C source by a
script that only expands the assignments `X[i] = -X[j]`, `W[i] = W[j]`.
-/
namespace PetIGA.Rule

/-- `IGA_Rule_GaussLegendre`, petigarule.c:182-319: points and weights, `none` when the function returns `-1`.
Assignments such as `X[3] = -X[1]` are expanded; decimals are exact rationals. -/
def legendreTable : Int → Option (List Rat × List Rat)
  | 1 => some ([0.0],
     [2.0])
  | 2 => some ([-0.577350269189625764509148780501957456, 0.577350269189625764509148780501957456],
     [1.0, 1.0])
  | 3 => some ([-0.774596669241483377035853079956479922, 0.0,
      0.774596669241483377035853079956479922],
     [0.555555555555555555555555555555555556, 0.888888888888888888888888888888888889,
      0.555555555555555555555555555555555556])
  | 4 => some ([-0.861136311594052575223946488892809505, -0.339981043584856264802665759103244687,
      0.339981043584856264802665759103244687, 0.861136311594052575223946488892809505],
     [0.347854845137453857373063949221999407, 0.652145154862546142626936050778000593,
      0.652145154862546142626936050778000593, 0.347854845137453857373063949221999407])
  | 5 => some ([-0.906179845938663992797626878299392965, -0.538469310105683091036314420700208805,
      0.0, 0.538469310105683091036314420700208805,
      0.906179845938663992797626878299392965],
     [0.236926885056189087514264040719917363, 0.478628670499366468041291514835638193,
      0.568888888888888888888888888888888889, 0.478628670499366468041291514835638193,
      0.236926885056189087514264040719917363])
  | 6 => some ([-0.932469514203152027812301554493994609, -0.661209386466264513661399595019905347,
      -0.238619186083196908630501721680711935, 0.238619186083196908630501721680711935,
      0.661209386466264513661399595019905347, 0.932469514203152027812301554493994609],
     [0.171324492379170345040296142172732894, 0.360761573048138607569833513837716112,
      0.467913934572691047389870343989550995, 0.467913934572691047389870343989550995,
      0.360761573048138607569833513837716112, 0.171324492379170345040296142172732894])
  | 7 => some ([-0.949107912342758524526189684047851262, -0.741531185599394439863864773280788407,
      -0.405845151377397166906606412076961463, 0.0,
      0.405845151377397166906606412076961463, 0.741531185599394439863864773280788407,
      0.949107912342758524526189684047851262],
     [0.129484966168869693270611432679082018, 0.279705391489276667901467771423779582,
      0.381830050505118944950369775488975134, 0.417959183673469387755102040816326531,
      0.381830050505118944950369775488975134, 0.279705391489276667901467771423779582,
      0.129484966168869693270611432679082018])
  | 8 => some ([-0.960289856497536231683560868569472990, -0.796666477413626739591553936475830437,
      -0.525532409916328985817739049189246349, -0.183434642495649804939476142360183981,
      0.183434642495649804939476142360183981, 0.525532409916328985817739049189246349,
      0.796666477413626739591553936475830437, 0.960289856497536231683560868569472990],
     [0.101228536290376259152531354309962190, 0.222381034453374470544355994426240884,
      0.313706645877887287337962201986601313, 0.362683783378361982965150449277195612,
      0.362683783378361982965150449277195612, 0.313706645877887287337962201986601313,
      0.222381034453374470544355994426240884, 0.101228536290376259152531354309962190])
  | 9 => some ([-0.968160239507626089835576202903672870, -0.836031107326635794299429788069734877,
      -0.613371432700590397308702039341474185, -0.324253423403808929038538014643336609,
      0.0, 0.324253423403808929038538014643336609,
      0.613371432700590397308702039341474185, 0.836031107326635794299429788069734877,
      0.968160239507626089835576202903672870],
     [0.081274388361574411971892158110523651, 0.180648160694857404058472031242912810,
      0.260610696402935462318742869418632850, 0.312347077040002840068630406584443666,
      0.330239355001259763164525069286974049, 0.312347077040002840068630406584443666,
      0.260610696402935462318742869418632850, 0.180648160694857404058472031242912810,
      0.081274388361574411971892158110523651])
  | 10 => some ([-0.973906528517171720077964012084452053, -0.865063366688984510732096688423493049,
      -0.679409568299024406234327365114873576, -0.433395394129247190799265943165784162,
      -0.148874338981631210884826001129719985, 0.148874338981631210884826001129719985,
      0.433395394129247190799265943165784162, 0.679409568299024406234327365114873576,
      0.865063366688984510732096688423493049, 0.973906528517171720077964012084452053],
     [0.066671344308688137593568809893331793, 0.149451349150580593145776339657697332,
      0.219086362515982043995534934228163192, 0.269266719309996355091226921569469353,
      0.295524224714752870173892994651338329, 0.295524224714752870173892994651338329,
      0.269266719309996355091226921569469353, 0.219086362515982043995534934228163192,
      0.149451349150580593145776339657697332, 0.066671344308688137593568809893331793])
  | _ => none

/-- `IGA_Rule_GaussLobatto`, petigarule.c:321-454: points and weights, `none` when the function returns `-1`.
Assignments such as `X[3] = -X[1]` are expanded; decimals are exact rationals. -/
def lobattoTable : Int → Option (List Rat × List Rat)
  | 2 => some ([-1.0, 1.0],
     [1.0, 1.0])
  | 3 => some ([-1.0, 0.0,
      1.0],
     [0.333333333333333333333333333333333333, 1.333333333333333333333333333333333333,
      0.333333333333333333333333333333333333])
  | 4 => some ([-1.0, -0.447213595499957939281834733746255247,
      0.447213595499957939281834733746255247, 1.0],
     [0.166666666666666666666666666666666667, 0.833333333333333333333333333333333333,
      0.833333333333333333333333333333333333, 0.166666666666666666666666666666666667])
  | 5 => some ([-1.0, -0.654653670707977143798292456246858356,
      0.0, 0.654653670707977143798292456246858356,
      1.0],
     [0.100000000000000000000000000000000000, 0.544444444444444444444444444444444444,
      0.711111111111111111111111111111111111, 0.544444444444444444444444444444444444,
      0.100000000000000000000000000000000000])
  | 6 => some ([-1.0, -0.765055323929464692851002973959338150,
      -0.285231516480645096314150994040879072, 0.285231516480645096314150994040879072,
      0.765055323929464692851002973959338150, 1.0],
     [0.066666666666666666666666666666666667, 0.378474956297846980316612808212024652,
      0.554858377035486353016720525121308681, 0.554858377035486353016720525121308681,
      0.378474956297846980316612808212024652, 0.066666666666666666666666666666666667])
  | 7 => some ([-1.0, -0.830223896278566929872032213967465140,
      -0.468848793470714213803771881908766329, 0.0,
      0.468848793470714213803771881908766329, 0.830223896278566929872032213967465140,
      1.0],
     [0.047619047619047619047619047619047619, 0.276826047361565948010700406290066293,
      0.431745381209862623417871022281362278, 0.487619047619047619047619047619047619,
      0.431745381209862623417871022281362278, 0.276826047361565948010700406290066293,
      0.047619047619047619047619047619047619])
  | 8 => some ([-1.0, -0.871740148509606615337445761220663438,
      -0.591700181433142302144510731397953190, -0.209299217902478868768657260345351255,
      0.209299217902478868768657260345351255, 0.591700181433142302144510731397953190,
      0.871740148509606615337445761220663438, 1.0],
     [0.035714285714285714285714285714285714, 0.210704227143506039382992065775756324,
      0.341122692483504364764240677107748172, 0.412458794658703881567052971402209789,
      0.412458794658703881567052971402209789, 0.341122692483504364764240677107748172,
      0.210704227143506039382992065775756324, 0.035714285714285714285714285714285714])
  | 9 => some ([-1.0, -0.899757995411460157312345244418337958,
      -0.677186279510737753445885427091342451, -0.363117463826178158710752068708659213,
      0.0, 0.363117463826178158710752068708659213,
      0.677186279510737753445885427091342451, 0.899757995411460157312345244418337958,
      1.0],
     [0.027777777777777777777777777777777778, 0.165495361560805525046339720029208306,
      0.274538712500161735280705618579372726, 0.346428510973046345115131532139718288,
      0.371519274376417233560090702947845805, 0.346428510973046345115131532139718288,
      0.274538712500161735280705618579372726, 0.165495361560805525046339720029208306,
      0.027777777777777777777777777777777778])
  | 10 => some ([-1.0, -0.919533908166458813828932660822338134,
      -0.738773865105505075003106174859830725, -0.477924949810444495661175092731257998,
      -0.165278957666387024626219765958173533, 0.165278957666387024626219765958173533,
      0.477924949810444495661175092731257998, 0.738773865105505075003106174859830725,
      0.919533908166458813828932660822338134, 1.0],
     [0.022222222222222222222222222222222222, 0.133305990851070111126227170755392898,
      0.224889342063126452119457821731047843, 0.292042683679683757875582257374443892,
      0.327539761183897456656510527916893145, 0.327539761183897456656510527916893145,
      0.292042683679683757875582257374443892, 0.224889342063126452119457821731047843,
      0.133305990851070111126227170755392898, 0.022222222222222222222222222222222222])
  | _ => none

/-- `IGARuleType`, include/petiga.h:82-87. -/
inductive RuleType where
  | legendre | lobatto | reduced | user
  deriving DecidableEq, Repr

variable {K : Type} [Field K]

/-- `struct _n_IGARule` (include/petiga.h) without the reference count; a `NULL` array is `none`. -/
structure Rule (K : Type) where
  type : RuleType
  nqp : Int
  point : Option (List K)
  weight : Option (List K)
  deriving DecidableEq

/-- `IGARuleCreate`, petigarule.c:11-20 (`PetscCalloc1`; the first enumerator is `LEGENDRE`). -/
def create : Rule K := { type := .legendre, nqp := 0, point := none, weight := none }

/-- `IGARuleReset`, petigarule.c:37-47 (keeps the type). -/
def reset (r : Rule K) : Rule K := { r with nqp := 0, point := none, weight := none }

/-- The table selected by the switch in `IGARuleSetUp`, petigarule.c:130-139: the outer `none` is
`ComputeRule == NULL`, the inner one its failure. -/
def table (t : RuleType) (nqp : Int) : Option (Option (List Rat × List Rat)) :=
  match t with
  | .legendre => some (legendreTable nqp)
  | .lobatto => some (lobattoTable nqp)
  | .user => none
  | .reduced => some (legendreTable nqp)

/-- `IGARuleSetUp`, petigarule.c:118-143. -/
def setUp (r : Rule K) : Res Unit × Rule K :=
  if r.nqp < 1 then (.err .order, r)
  else
    let r := { r with point := some (r.point.getD (List.replicate r.nqp.toNat 0)) }
    let r := { r with weight := some (r.weight.getD (List.replicate r.nqp.toNat 0)) }
    match table r.type r.nqp with
    | none => (.ok (), r)
    | some none => (.err .outOfRange, r)
    | some (some (X, W)) =>
      (.ok (), { r with point := some (X.map fun x : Rat => ((x : Rat) : K)), weight := some (W.map fun w : Rat => ((w : Rat) : K)) })

/-- `IGARuleSetType`, petigarule.c:89-98. -/
def setType (r : Rule K) (t : RuleType) : Res Unit × Rule K :=
  if r.type = t then (.ok (), r)
  else
    let r := { r with type := t }
    if r.nqp > 0 then setUp r else (.ok (), r)

/-- `IGARuleSetSize`, petigarule.c:100-113. -/
def setSize (r : Rule K) (nqp : Int) : Res Unit × Rule K :=
  if nqp < 1 then (.err .outOfRange, r)
  else if r.nqp = nqp then (.ok (), r)
  else setUp { reset r with nqp := nqp }

/-- `IGARuleSetRule`, petigarule.c:145-157; `x`, `w` are the caller's arrays, at least `q` long
(reading beyond them is undefined behaviour). -/
def setRule (r : Rule K) (q : Int) (x w : List K) : Res Unit × Rule K :=
  let r := { r with type := .user }
  match setSize r q with
  | (.ok _, r) =>
    if (x.length : Int) < r.nqp ∨ (w.length : Int) < r.nqp ∨ r.point = none ∨ r.weight = none then (.ub, r)
    else (.ok (), { r with point := some (x.take r.nqp.toNat), weight := some (w.take r.nqp.toNat) })
  | e => e

/-- `IGARuleCopy` for two distinct rules, petigarule.c:57-76. -/
def copy (base _rule : Rule K) : Rule K :=
  { type := base.type, nqp := base.nqp,
    point := if base.nqp > 0 then base.point else none,
    weight := if base.nqp > 0 then base.weight else none }

end PetIGA.Rule

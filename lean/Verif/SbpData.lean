import Verif.Sbp
import Mathlib.Algebra.Field.Rat

/-!
GENERATED by tools/gen_sbp_data.py.  The SBP operator tables of
/repo/src/common/data/sbp_operators.hpp and the node coordinates and weights of
/repo/src/common/sbp_fe.cpp, as exact integers: operator entries in units of 10^-34, coordinates
and weights in units of 10^-19.  (`double` rounding of the decimal literals is not modelled.)
-/

namespace Verif.Sbp

/-- One shipped element: dimension, number of nodes, the operators row by row as they appear in the
header (row `i`, column `j` of `Q_di`), node coordinates (one list per direction) and weights.
sbp_operators.hpp:6-3000, sbp_fe.cpp:657-988. -/
structure Table where
  /-- reference dimension -/
  dim : ℕ
  /-- number of nodes -/
  n : ℕ
  /-- rows of the operators, in units of `10^-34` -/
  q : List (List (List ℤ))
  /-- node coordinates, one list per direction, in units of `10^-19` -/
  x : List (List ℤ)
  /-- quadrature weights, in units of `10^-19` -/
  w : List ℤ

/-- The element built from a table: the arrays are stored row-major and loaded into a column-major
`DenseMatrix`, so `Q[di](r, c)` is entry `c * n + r` of the array -- the transposed operator
(sbp_operators.hpp:6-7, sbp_fe.cpp:657-658, 815-821). -/
def Table.elem (K : Type*) [Field K] (t : Table) : Elem K where
  dim := t.dim
  dof := t.n
  H := fun i => ((t.w.getD i 0 : ℤ) : K) / 10 ^ 19
  Q := fun di r c => ((((t.q.getD di []).getD c []).getD r 0 : ℤ) : K) / 10 ^ 34
  V := fun _ _ => 0
  nv := 0
  x := fun i di => (((t.x.getD di []).getD i 0 : ℤ) : K) / 10 ^ 19

/-- sbp_operators.hpp: p0Qx_tri 102-110, p0Qy_tri 111-119; nodes sbp_fe.cpp:661-668. -/
def tri0 : Table where
  dim := 2
  n := 3
  q := [[[-1666666666666664000000000000000000, 1666666666666668500000000000000000, 2220446049250313000],
    [-1666666666666668500000000000000000, 1666666666666662400000000000000000, -3330669073875469600],
    [-1666666666666664600000000000000000, 1666666666666665700000000000000000, 1665334536937734800]],
   [[-1666666666666662400000000000000000, 3330669073875469600, 1666666666666668000000000000000000],
    [-1666666666666665700000000000000000, -1665334536937734800, 1666666666666665200000000000000000],
    [-1666666666666668000000000000000000, -2914335439641036000, 1666666666666664000000000000000000]]]
  x := [[0, 10000000000000000000, 0],
   [0, 0, 10000000000000000000]]
  w := [1666666666666666600, 1666666666666666600, 1666666666666666600]

/-- sbp_operators.hpp: p1Qx_tri 121-169, p1Qy_tri 170-218; nodes sbp_fe.cpp:669-683. -/
def tri1 : Table where
  dim := 2
  n := 7
  q := [[[-833333333333333300000000000000000, -54119803382487505000000000000000, -27059901691243250000000000000000, 588286261767891100000000000000000, -524260601516287500000000000000000, 34166458385403485000000000000000, 816320919770057600000000000000000],
    [54119803382487505000000000000000, 833333333333333300000000000000000, 27059901691243480000000000000000, -588286261767891200000000000000000, -34166458385403510000000000000000, 524260601516287060000000000000000, -816320919770058100000000000000000],
    [27059901691243250000000000000000, -27059901691243480000000000000000, 0, -493778750493607600, 554119803382487700000000000000000, -554119803382487100000000000000000, 444821269307896270],
    [-588286261767891100000000000000000, 588286261767891200000000000000000, 493778750493607600, 0, 156760809797550460000000000000000, -156760809797549320000000000000000, -70965316046399820],
    [524260601516287500000000000000000, 34166458385403510000000000000000, -554119803382487700000000000000000, -156760809797550460000000000000000, 3333333333333333000000000000000000, -313521619595100000000000000000000, -2867358160459886000000000000000000],
    [-34166458385403485000000000000000, -524260601516287060000000000000000, 554119803382487100000000000000000, 156760809797549320000000000000000, 313521619595100000000000000000000, -3333333333333333000000000000000000, 2867358160459886000000000000000000],
    [-816320919770057600000000000000000, 816320919770058100000000000000000, -444821269307896270, 70965316046399820, 2867358160459886000000000000000000, -2867358160459886000000000000000000, 0]],
   [[-833333333333333300000000000000000, -27059901691244333000000000000000, -54119803382487040000000000000000, 34166458385401800000000000000000, -524260601516287800000000000000000, 588286261767892600000000000000000, 816320919770057900000000000000000],
    [27059901691244333000000000000000, 0, -27059901691244594000000000000000, -554119803382485400000000000000000, 554119803382485800000000000000000, -64970888222843104, 772402824224564100],
    [54119803382487040000000000000000, 27059901691244594000000000000000, 833333333333333300000000000000000, 524260601516287900000000000000000, -34166458385401564000000000000000, -588286261767893100000000000000000, -816320919770058100000000000000000],
    [-34166458385401800000000000000000, 554119803382485400000000000000000, -524260601516287900000000000000000, -3333333333333333000000000000000000, 313521619595094300000000000000000, 156760809797556640000000000000000, 2867358160459886300000000000000000],
    [524260601516287800000000000000000, -554119803382485800000000000000000, 34166458385401564000000000000000, -313521619595094300000000000000000, 3333333333333333000000000000000000, -156760809797557330000000000000000, -2867358160459887500000000000000000],
    [-588286261767892600000000000000000, 64970888222843104, 588286261767893100000000000000000, -156760809797556640000000000000000, 156760809797557330000000000000000, 0, -851583792556797800],
    [-816320919770057900000000000000000, -772402824224564100, 816320919770058100000000000000000, -2867358160459886300000000000000000, 2867358160459887500000000000000000, 851583792556797800, 0]]]
  x := [[0, 10000000000000000000, 0, 5000000000000000000, 5000000000000000000, 0, 3333333333333333000],
   [0, 0, 10000000000000000000, 0, 5000000000000000000, 5000000000000000000, 3333333333333333000]]
  w := [249999999999999980, 249999999999999980, 249999999999999980, 666666666666666700, 666666666666666700, 666666666666666700, 2250000000000000600]

/-- sbp_operators.hpp: p2Qx_tri 220-363, p2Qy_tri 364-507; nodes sbp_fe.cpp:684-707. -/
def tri2 : Table where
  dim := 2
  n := 12
  q := [[[-416666666666666640000000000000000, 16559427588248800000000000000000, 8279713794124311000000000000000, 391325343641538400000000000000000, -44442200539125190000000000000000, 49259255750383315000000000000000, 133124934731011970000000000000000, -50097460294295290000000000000000, 88118495574975010000000000000000, -190853852426149400000000000000000, 195343362777172830000000000000000, -179950353931215100000000000000000],
    [-16559427588248800000000000000000, 416666666666666640000000000000000, -8279713794124617000000000000000, 44442200539125440000000000000000, -391325343641538400000000000000000, -88118495574973990000000000000000, 50097460294296240000000000000000, -133124934731011900000000000000000, -49259255750383210000000000000000, 190853852426149840000000000000000, 179950353931214720000000000000000, -195343362777171750000000000000000],
    [-8279713794124311000000000000000, 8279713794124617000000000000000, 0, 83865678980628980000000000000000, -83865678980628250000000000000000, 5655259755170869000000000000000, 303206848066563640000000000000000, -303206848066563330000000000000000, -5655259755170691000000000000000, 340026821848541440, -10903498494934884000000000000000, 10903498494935356000000000000000],
    [-391325343641538400000000000000000, -44442200539125440000000000000000, -83865678980628980000000000000000, 0, 294727210090927100000000000000000, -225090821065067300000000000000000, 200998713297448370000000000000000, 284559069695294250000000000000000, -214126857542618500000000000000000, -509353001625014000000000000000000, 221094367824196880000000000000000, 466824542486127400000000000000000],
    [44442200539125190000000000000000, 391325343641538400000000000000000, 83865678980628250000000000000000, -294727210090927100000000000000000, 0, 214126857542619240000000000000000, -284559069695295050000000000000000, -200998713297448440000000000000000, 225090821065066700000000000000000, 509353001625013000000000000000000, -466824542486128500000000000000000, -221094367824195730000000000000000],
    [-49259255750383315000000000000000, 88118495574973990000000000000000, -5655259755170869000000000000000, 225090821065067300000000000000000, -214126857542619240000000000000000, 2083333333333333400000000000000000, -147363605045463950000000000000000, 509649890760359800000000000000000, -401997426594896500000000000000000, -765865702963942100000000000000000, 751851080301549600000000000000000, -2073775513382807600000000000000000],
    [-133124934731011970000000000000000, -50097460294296240000000000000000, -303206848066563640000000000000000, -200998713297448370000000000000000, 284559069695295050000000000000000, 147363605045463950000000000000000, 2083333333333333400000000000000000, -428253715085238300000000000000000, 509649890760360100000000000000000, -1852681145558613700000000000000000, 242498078676536380000000000000000, -299041160477814360000000000000000],
    [50097460294295290000000000000000, 133124934731011900000000000000000, 303206848066563330000000000000000, -284559069695294250000000000000000, 200998713297448440000000000000000, -509649890760359800000000000000000, 428253715085238300000000000000000, -2083333333333333400000000000000000, -147363605045463860000000000000000, 1852681145558612900000000000000000, 299041160477814850000000000000000, -242498078676536550000000000000000],
    [-88118495574975010000000000000000, 49259255750383210000000000000000, 5655259755170691000000000000000, 214126857542618500000000000000000, -225090821065066700000000000000000, 401997426594896500000000000000000, -509649890760360100000000000000000, 147363605045463860000000000000000, -2083333333333333400000000000000000, 765865702963942000000000000000000, 2073775513382807600000000000000000, -751851080301551000000000000000000],
    [190853852426149400000000000000000, -190853852426149840000000000000000, -340026821848541440, 509353001625014000000000000000000, -509353001625013000000000000000000, 765865702963942100000000000000000, 1852681145558613700000000000000000, -1852681145558612900000000000000000, -765865702963942000000000000000000, 0, -1161941958796742800000000000000000, 1161941958796736300000000000000000],
    [-195343362777172830000000000000000, -179950353931214720000000000000000, 10903498494934884000000000000000, -221094367824196880000000000000000, 466824542486128500000000000000000, -751851080301549600000000000000000, -242498078676536380000000000000000, -299041160477814850000000000000000, -2073775513382807600000000000000000, 1161941958796742800000000000000000, 0, 2323883917593485000000000000000000],
    [179950353931215100000000000000000, 195343362777171750000000000000000, -10903498494935356000000000000000, -466824542486127400000000000000000, 221094367824195730000000000000000, 2073775513382807600000000000000000, 299041160477814360000000000000000, 242498078676536550000000000000000, 751851080301551000000000000000000, -1161941958796736300000000000000000, -2323883917593485000000000000000000, 0]],
   [[-416666666666666640000000000000000, 8279713794124503000000000000000, 16559427588248715000000000000000, 88118495574973920000000000000000, -50097460294296430000000000000000, 133124934731012250000000000000000, 49259255750383660000000000000000, -44442200539124704000000000000000, 391325343641537660000000000000000, -179950353931214240000000000000000, 195343362777171700000000000000000, -190853852426150670000000000000000],
    [-8279713794124503000000000000000, 0, 8279713794124536000000000000000, -5655259755170486000000000000000, -303206848066563850000000000000000, 303206848066563220000000000000000, 5655259755170853000000000000000, -83865678980628110000000000000000, 83865678980628490000000000000000, 10903498494935573000000000000000, -10903498494935064000000000000000, -187361718161441200],
    [-16559427588248715000000000000000, -8279713794124536000000000000000, 416666666666666640000000000000000, -49259255750382560000000000000000, -133124934731011030000000000000000, 50097460294295680000000000000000, -88118495574973970000000000000000, -391325343641537300000000000000000, 44442200539125160000000000000000, -195343362777171440000000000000000, 179950353931214860000000000000000, 190853852426149800000000000000000],
    [-88118495574973920000000000000000, 5655259755170486000000000000000, 49259255750382560000000000000000, -2083333333333333400000000000000000, 147363605045464090000000000000000, -509649890760360550000000000000000, 401997426594894460000000000000000, -225090821065067000000000000000000, 214126857542617580000000000000000, -751851080301548500000000000000000, 2073775513382808700000000000000000, 765865702963944400000000000000000],
    [50097460294296430000000000000000, 303206848066563850000000000000000, 133124934731011030000000000000000, -147363605045464090000000000000000, -2083333333333333400000000000000000, 428253715085237660000000000000000, -509649890760361860000000000000000, 200998713297447900000000000000000, -284559069695294350000000000000000, -242498078676535860000000000000000, 299041160477815230000000000000000, 1852681145558614800000000000000000],
    [-133124934731012250000000000000000, -303206848066563220000000000000000, -50097460294295680000000000000000, 509649890760360550000000000000000, -428253715085237660000000000000000, 2083333333333333400000000000000000, 147363605045462840000000000000000, 284559069695292380000000000000000, -200998713297447650000000000000000, -299041160477813740000000000000000, 242498078676534920000000000000000, -1852681145558612600000000000000000],
    [-49259255750383660000000000000000, -5655259755170853000000000000000, 88118495574973970000000000000000, -401997426594894460000000000000000, 509649890760361860000000000000000, -147363605045462840000000000000000, 2083333333333333400000000000000000, -214126857542619600000000000000000, 225090821065067000000000000000000, -2073775513382809000000000000000000, 751851080301548900000000000000000, -765865702963942600000000000000000],
    [44442200539124704000000000000000, 83865678980628110000000000000000, 391325343641537300000000000000000, 225090821065067000000000000000000, -200998713297447900000000000000000, -284559069695292380000000000000000, 214126857542619600000000000000000, 0, -294727210090928380000000000000000, -221094367824195730000000000000000, -466824542486129500000000000000000, 509353001625014900000000000000000],
    [-391325343641537660000000000000000, -83865678980628490000000000000000, -44442200539125160000000000000000, -214126857542617580000000000000000, 284559069695294350000000000000000, 200998713297447650000000000000000, -225090821065067000000000000000000, 294727210090928380000000000000000, 0, 466824542486127400000000000000000, 221094367824194240000000000000000, -509353001625015840000000000000000],
    [179950353931214240000000000000000, -10903498494935573000000000000000, 195343362777171440000000000000000, 751851080301548500000000000000000, 242498078676535860000000000000000, 299041160477813740000000000000000, 2073775513382809000000000000000000, 221094367824195730000000000000000, -466824542486127400000000000000000, 0, -2323883917593484000000000000000000, -1161941958796744900000000000000000],
    [-195343362777171700000000000000000, 10903498494935064000000000000000, -179950353931214860000000000000000, -2073775513382808700000000000000000, -299041160477815230000000000000000, -242498078676534920000000000000000, -751851080301548900000000000000000, 466824542486129500000000000000000, -221094367824194240000000000000000, 2323883917593484000000000000000000, 0, 1161941958796741800000000000000000],
    [190853852426150670000000000000000, 187361718161441200, -190853852426149800000000000000000, -765865702963944400000000000000000, -1852681145558614800000000000000000, 1852681145558612600000000000000000, 765865702963942600000000000000000, -509353001625014900000000000000000, 509353001625015840000000000000000, 1161941958796744900000000000000000, -1161941958796741800000000000000000, 0]]]
  x := [[0, 10000000000000000000, 0, 2763932022500210600, 7236067977499789000, 7236067977499789000, 2763932022500210600, 0, 0, 2128543571118082500, 2128543571118082500, 5742912857763836000],
   [0, 0, 10000000000000000000, 0, 0, 2763932022500210600, 7236067977499789000, 7236067977499789000, 2763932022500210600, 5742912857763836000, 2128543571118082500, 2128543571118082500]]
  w := [62611265048997410, 62611265048997410, 62611265048997410, 268238002503892420, 268238002503892420, 268238002503892420, 268238002503892420, 268238002503892420, 268238002503892420, 1067579396609883900, 1067579396609883900, 1067579396609883900]

/-- sbp_operators.hpp: p3Qx_tri 509-832, p3Qy_tri 833-1156; nodes sbp_fe.cpp:708-740. -/
def tri3 : Table where
  dim := 2
  n := 18
  q := [[[-250000000000000000000000000000000, 3861383468063424400000000000000, 1930691734031760200000000000000, -43132946232146220000000000000000, 261501099041940000000000000000000, 8467948480090762000000000000000, -12793756791941240000000000000000, -25917035664163670000000000000000, -60143051115516040000000000000000, -43919664320535776000000000000000, 13555869880658275000000000000000, 56747619544266470000000000000000, -92961104672294390000000000000000, 68994999497265785000000000000000, -77386890998930530000000000000000, 87309478901655920000000000000000, 66745177079253456000000000000000, 37140182168303970000000000000000],
    [-3861383468063424400000000000000, 250000000000000000000000000000000, -1930691734031676000000000000000, 43132946232146965000000000000000, -8467948480091515000000000000000, -261501099041940260000000000000000, 43919664320535740000000000000000, -56747619544266130000000000000000, -13555869880658225000000000000000, 12793756791941997000000000000000, 60143051115516160000000000000000, 25917035664163620000000000000000, 92961104672293940000000000000000, 77386890998929870000000000000000, -68994999497266090000000000000000, -87309478901656500000000000000000, -37140182168303880000000000000000, -66745177079253500000000000000000],
    [-1930691734031760200000000000000, 1930691734031676000000000000000, 0, -181140306889772500, -34226015451352040000000000000000, 34226015451352208000000000000000, 786718088389161800000000000000, -5087921400567256000000000000000, 204753479497674100000000000000000, -786718088389422800000000000000, -204753479497674500000000000000000, 5087921400567317000000000000000, -314088839375457750, -15574213673364594000000000000000, 15574213673363512000000000000000, -381016912240410250, 50169296733352400000000000000000, -50169296733352730000000000000000],
    [43132946232146220000000000000000, -43132946232146965000000000000000, 181140306889772500, 0, -227424794239134520000000000000000, 227424794239134630000000000000000, 138390804768729060000000000000000, -189376796100663370000000000000000, -2352037250952793600000000000000, -138390804768730720000000000000000, 2352037250950619700000000000000, 189376796100663400000000000000000, 330751077707319500, -345987124512266400000000000000000, 345987124512264140000000000000000, -918912530645853900, -403643844286313350000000000000000, 403643844286314200000000000000000],
    [-261501099041940000000000000000000, 8467948480091515000000000000000, 34226015451352040000000000000000, 227424794239134520000000000000000, 0, -49690326747715815000000000000000, 5355452305399917000000000000000, 41763899664393410000000000000000, -76734381812379410000000000000000, 192151323489647770000000000000000, -141616637996656860000000000000000, -146688993547503030000000000000000, 181517492641593870000000000000000, -39149298370968480000000000000000, -330587144093524700000000000000000, 252316814293197970000000000000000, 194157629945075040000000000000000, -91413488899195150000000000000000],
    [-8467948480090762000000000000000, 261501099041940260000000000000000, -34226015451352208000000000000000, -227424794239134630000000000000000, 49690326747715815000000000000000, 0, -192151323489646970000000000000000, 146688993547502610000000000000000, 141616637996655070000000000000000, -5355452305398348000000000000000, 76734381812380290000000000000000, -41763899664393560000000000000000, -181517492641594100000000000000000, 330587144093523600000000000000000, 39149298370968650000000000000000, -252316814293198420000000000000000, 91413488899198200000000000000000, -194157629945074500000000000000000],
    [12793756791941240000000000000000, -43919664320535740000000000000000, -786718088389161800000000000000, -138390804768729060000000000000000, -5355452305399917000000000000000, 192151323489646970000000000000000, 1777777777777777800000000000000000, 127547099663485790000000000000000, -99877694575649100000000000000000, -276781609537458460000000000000000, 381528119590311340000000000000000, -3003415054447430000000000000000, 316359658077281400000000000000000, -1837055021747100200000000000000000, 662346782589541700000000000000000, -700826063570852100000000000000000, -67325854726888980000000000000000, -297182219284536260000000000000000],
    [25917035664163670000000000000000, 56747619544266130000000000000000, 5087921400567256000000000000000, 189376796100663370000000000000000, -41763899664393410000000000000000, -146688993547502610000000000000000, -127547099663485790000000000000000, 1361111111111111000000000000000000, 24845163373857690000000000000000, -3003415054447031000000000000000, -183380537661049200000000000000000, 153468763624760200000000000000000, 457975341858727500000000000000000, -324337324041203070000000000000000, 82843354383959780000000000000000, 314309644881146650000000000000000, -402551844017362550000000000000000, -1442409638293778400000000000000000],
    [60143051115516040000000000000000, 13555869880658225000000000000000, -204753479497674100000000000000000, 2352037250952793600000000000000, 76734381812379410000000000000000, -141616637996655070000000000000000, 99877694575649100000000000000000, -24845163373857690000000000000000, 1361111111111111000000000000000000, 381528119590310600000000000000000, -293377987095005800000000000000000, -183380537661049300000000000000000, 43694056012991690000000000000000, -142819831399608340000000000000000, 127388197765202370000000000000000, -1248252008348703600000000000000000, -150235029724165880000000000000000, 222896155981949230000000000000000],
    [43919664320535776000000000000000, -12793756791941997000000000000000, 786718088389422800000000000000, 138390804768730720000000000000000, -192151323489647770000000000000000, 5355452305398348000000000000000, 276781609537458460000000000000000, 3003415054447031000000000000000, -381528119590310600000000000000000, -1777777777777777800000000000000000, 99877694575649330000000000000000, -127547099663484660000000000000000, -316359658077277340000000000000000, -662346782589543600000000000000000, 1837055021747098800000000000000000, 700826063570849500000000000000000, 297182219284538170000000000000000, 67325854726889720000000000000000],
    [-13555869880658275000000000000000, -60143051115516160000000000000000, 204753479497674500000000000000000, -2352037250950619700000000000000, 141616637996656860000000000000000, -76734381812380290000000000000000, -381528119590311340000000000000000, 183380537661049200000000000000000, 293377987095005800000000000000000, -99877694575649330000000000000000, -1361111111111111000000000000000000, 24845163373857780000000000000000, -43694056012991180000000000000000, -127388197765202130000000000000000, 142819831399608310000000000000000, 1248252008348703400000000000000000, -222896155981950820000000000000000, 150235029724165580000000000000000],
    [-56747619544266470000000000000000, -25917035664163620000000000000000, -5087921400567317000000000000000, -189376796100663400000000000000000, 146688993547503030000000000000000, 41763899664393560000000000000000, 3003415054447430000000000000000, -153468763624760200000000000000000, 183380537661049300000000000000000, 127547099663484660000000000000000, -24845163373857780000000000000000, -1361111111111111000000000000000000, -457975341858727600000000000000000, -82843354383959780000000000000000, 324337324041202600000000000000000, -314309644881145960000000000000000, 1442409638293779000000000000000000, 402551844017363100000000000000000],
    [92961104672294390000000000000000, -92961104672293940000000000000000, 314088839375457750, -330751077707319500, -181517492641593870000000000000000, 181517492641594100000000000000000, -316359658077281400000000000000000, -457975341858727500000000000000000, -43694056012991690000000000000000, 316359658077277340000000000000000, 43694056012991180000000000000000, 457975341858727600000000000000000, 0, 1088734999984264400000000000000000, -1088734999984262600000000000000000, -1038702706822474100, -1686665221598186200000000000000000, 1686665221598183400000000000000000],
    [-68994999497265785000000000000000, -77386890998929870000000000000000, 15574213673364594000000000000000, 345987124512266400000000000000000, 39149298370968480000000000000000, -330587144093523600000000000000000, 1837055021747100200000000000000000, 324337324041203070000000000000000, 142819831399608340000000000000000, 662346782589543600000000000000000, 127388197765202130000000000000000, 82843354383959780000000000000000, -1088734999984264400000000000000000, 0, -2177469999968528000000000000000000, -860521189680131800000000000000000, 200050043821375400000000000000000, 826144031918057100000000000000000],
    [77386890998930530000000000000000, 68994999497266090000000000000000, -15574213673363512000000000000000, -345987124512264140000000000000000, 330587144093524700000000000000000, -39149298370968650000000000000000, -662346782589541700000000000000000, -82843354383959780000000000000000, -127388197765202370000000000000000, -1837055021747098800000000000000000, -142819831399608310000000000000000, -324337324041202600000000000000000, 1088734999984262600000000000000000, 2177469999968528000000000000000000, 0, 860521189680130400000000000000000, -826144031918059800000000000000000, -200050043821376370000000000000000],
    [-87309478901655920000000000000000, 87309478901656500000000000000000, 381016912240410250, 918912530645853900, -252316814293197970000000000000000, 252316814293198420000000000000000, 700826063570852100000000000000000, -314309644881146650000000000000000, 1248252008348703600000000000000000, -700826063570849500000000000000000, -1248252008348703400000000000000000, 314309644881145960000000000000000, 1038702706822474100, 860521189680131800000000000000000, -860521189680130400000000000000000, 0, 484824890121548360000000000000000, -484824890121552700000000000000000],
    [-66745177079253456000000000000000, 37140182168303880000000000000000, -50169296733352400000000000000000, 403643844286313350000000000000000, -194157629945075040000000000000000, -91413488899198200000000000000000, 67325854726888980000000000000000, 402551844017362550000000000000000, 150235029724165880000000000000000, -297182219284538170000000000000000, 222896155981950820000000000000000, -1442409638293779000000000000000000, 1686665221598186200000000000000000, -200050043821375400000000000000000, 826144031918059800000000000000000, -484824890121548360000000000000000, 0, -969649780243106000000000000000000],
    [-37140182168303970000000000000000, 66745177079253500000000000000000, 50169296733352730000000000000000, -403643844286314200000000000000000, 91413488899195150000000000000000, 194157629945074500000000000000000, 297182219284536260000000000000000, 1442409638293778400000000000000000, -222896155981949230000000000000000, -67325854726889720000000000000000, -150235029724165580000000000000000, -402551844017363100000000000000000, -1686665221598183400000000000000000, -826144031918057100000000000000000, 200050043821376370000000000000000, 484824890121552700000000000000000, 969649780243106000000000000000000, 0]],
   [[-250000000000000000000000000000000, 1930691734031753400000000000000, 3861383468063562000000000000000, -43919664320535730000000000000000, 56747619544266140000000000000000, 13555869880658071000000000000000, -12793756791941620000000000000000, -60143051115515630000000000000000, -25917035664163716000000000000000, -43132946232146530000000000000000, 8467948480091287000000000000000, 261501099041940440000000000000000, -77386890998930340000000000000000, 68994999497265730000000000000000, -92961104672294200000000000000000, 37140182168303190000000000000000, 66745177079253680000000000000000, 87309478901656280000000000000000],
    [-1930691734031753400000000000000, 0, 1930691734031987000000000000000, -786718088389293900000000000000, 5087921400567093000000000000000, -204753479497674260000000000000000, 786718088389070200000000000000, 204753479497674500000000000000000, -5087921400567224000000000000000, 39330637568627080, 34226015451352170000000000000000, -34226015451352270000000000000000, 15574213673363562000000000000000, -15574213673364315000000000000000, -290896291508267960, -50169296733353050000000000000000, 50169296733352500000000000000000, 12974828406857824],
    [-3861383468063562000000000000000, -1930691734031987000000000000000, 250000000000000000000000000000000, 12793756791941422000000000000000, 25917035664164267000000000000000, 60143051115516110000000000000000, 43919664320536050000000000000000, -13555869880657663000000000000000, -56747619544266530000000000000000, 43132946232146670000000000000000, -261501099041940440000000000000000, -8467948480091219000000000000000, -68994999497265990000000000000000, 77386890998930010000000000000000, 92961104672293710000000000000000, -66745177079253230000000000000000, -37140182168303890000000000000000, -87309478901656210000000000000000],
    [43919664320535730000000000000000, 786718088389293900000000000000, -12793756791941422000000000000000, -1777777777777777800000000000000000, -127547099663484590000000000000000, 99877694575649480000000000000000, 276781609537458800000000000000000, -381528119590310900000000000000000, 3003415054444579000000000000000, 138390804768728360000000000000000, 5355452305397985000000000000000, -192151323489646620000000000000000, 1837055021747100400000000000000000, -662346782589543500000000000000000, -316359658077279500000000000000000, 67325854726891730000000000000000, 297182219284535980000000000000000, 700826063570852400000000000000000],
    [-56747619544266140000000000000000, -5087921400567093000000000000000, -25917035664164267000000000000000, 127547099663484590000000000000000, -1361111111111111000000000000000000, -24845163373858115000000000000000, 3003415054447968000000000000000, 183380537661048770000000000000000, -153468763624759960000000000000000, -189376796100663230000000000000000, 41763899664392250000000000000000, 146688993547503800000000000000000, 324337324041203000000000000000000, -82843354383958670000000000000000, -457975341858727500000000000000000, 402551844017362900000000000000000, 1442409638293779800000000000000000, -314309644881146800000000000000000],
    [-13555869880658071000000000000000, 204753479497674260000000000000000, -60143051115516110000000000000000, -99877694575649480000000000000000, 24845163373858115000000000000000, -1361111111111111000000000000000000, -381528119590310300000000000000000, 293377987095005260000000000000000, 183380537661048360000000000000000, -2352037250952258500000000000000, -76734381812380590000000000000000, 141616637996655610000000000000000, 142819831399610240000000000000000, -127388197765203930000000000000000, -43694056012990490000000000000000, 150235029724165200000000000000000, -222896155981950370000000000000000, 1248252008348704800000000000000000],
    [12793756791941620000000000000000, -786718088389070200000000000000, -43919664320536050000000000000000, -276781609537458800000000000000000, -3003415054447968000000000000000, 381528119590310300000000000000000, 1777777777777777800000000000000000, -99877694575649470000000000000000, 127547099663486270000000000000000, -138390804768729060000000000000000, 192151323489648040000000000000000, -5355452305399411000000000000000, 662346782589546000000000000000000, -1837055021747100700000000000000000, 316359658077275300000000000000000, -297182219284540000000000000000000, -67325854726889315000000000000000, -700826063570850200000000000000000],
    [60143051115515630000000000000000, -204753479497674500000000000000000, 13555869880657663000000000000000, 381528119590310900000000000000000, -183380537661048770000000000000000, -293377987095005260000000000000000, 99877694575649470000000000000000, 1361111111111111000000000000000000, -24845163373858020000000000000000, 2352037250951400400000000000000, -141616637996655370000000000000000, 76734381812379170000000000000000, 127388197765202960000000000000000, -142819831399608970000000000000000, 43694056012991390000000000000000, 222896155981949700000000000000000, -150235029724162870000000000000000, -1248252008348705600000000000000000],
    [25917035664163716000000000000000, 5087921400567224000000000000000, 56747619544266530000000000000000, -3003415054444579000000000000000, 153468763624759960000000000000000, -183380537661048360000000000000000, -127547099663486270000000000000000, 24845163373858020000000000000000, 1361111111111111000000000000000000, 189376796100663600000000000000000, -146688993547502060000000000000000, -41763899664392860000000000000000, 82843354383961040000000000000000, -324337324041203600000000000000000, 457975341858728040000000000000000, -1442409638293778700000000000000000, -402551844017363300000000000000000, 314309644881146500000000000000000],
    [43132946232146530000000000000000, -39330637568627080, -43132946232146670000000000000000, -138390804768728360000000000000000, 189376796100663230000000000000000, 2352037250952258500000000000000, 138390804768729060000000000000000, -2352037250951400400000000000000, -189376796100663600000000000000000, 0, 227424794239133760000000000000000, -227424794239135040000000000000000, 345987124512266800000000000000000, -345987124512266400000000000000000, 591717891407919600, 403643844286314250000000000000000, -403643844286312860000000000000000, -1281532722111482500],
    [-8467948480091287000000000000000, -34226015451352170000000000000000, 261501099041940440000000000000000, -5355452305397985000000000000000, -41763899664392250000000000000000, 76734381812380590000000000000000, -192151323489648040000000000000000, 141616637996655370000000000000000, 146688993547502060000000000000000, -227424794239133760000000000000000, 0, 49690326747716320000000000000000, 39149298370968430000000000000000, 330587144093524700000000000000000, -181517492641595150000000000000000, -194157629945075180000000000000000, 91413488899195830000000000000000, -252316814293197630000000000000000],
    [-261501099041940440000000000000000, 34226015451352270000000000000000, 8467948480091219000000000000000, 192151323489646620000000000000000, -146688993547503800000000000000000, -141616637996655610000000000000000, 5355452305399411000000000000000, -76734381812379170000000000000000, 41763899664392860000000000000000, 227424794239135040000000000000000, -49690326747716320000000000000000, 0, -330587144093525700000000000000000, -39149298370968380000000000000000, 181517492641594400000000000000000, -91413488899197060000000000000000, 194157629945073370000000000000000, 252316814293199120000000000000000],
    [77386890998930340000000000000000, -15574213673363562000000000000000, 68994999497265990000000000000000, -1837055021747100400000000000000000, -324337324041203000000000000000000, -142819831399610240000000000000000, -662346782589546000000000000000000, -127388197765202960000000000000000, -82843354383961040000000000000000, -345987124512266800000000000000000, -39149298370968430000000000000000, 330587144093525700000000000000000, 0, 2177469999968528000000000000000000, 1088734999984264400000000000000000, -200050043821375500000000000000000, -826144031918056700000000000000000, 860521189680126800000000000000000],
    [-68994999497265730000000000000000, 15574213673364315000000000000000, -77386890998930010000000000000000, 662346782589543500000000000000000, 82843354383958670000000000000000, 127388197765203930000000000000000, 1837055021747100700000000000000000, 142819831399608970000000000000000, 324337324041203600000000000000000, 345987124512266400000000000000000, -330587144093524700000000000000000, 39149298370968380000000000000000, -2177469999968528000000000000000000, 0, -1088734999984265000000000000000000, 826144031918054800000000000000000, 200050043821374800000000000000000, -860521189680129200000000000000000],
    [92961104672294200000000000000000, 290896291508267960, -92961104672293710000000000000000, 316359658077279500000000000000000, 457975341858727500000000000000000, 43694056012990490000000000000000, -316359658077275300000000000000000, -43694056012991390000000000000000, -457975341858728040000000000000000, -591717891407919600, 181517492641595150000000000000000, -181517492641594400000000000000000, -1088734999984264400000000000000000, 1088734999984265000000000000000000, 0, 1686665221598185300000000000000000, -1686665221598186200000000000000000, 797785471351964000],
    [-37140182168303190000000000000000, 50169296733353050000000000000000, 66745177079253230000000000000000, -67325854726891730000000000000000, -402551844017362900000000000000000, -150235029724165200000000000000000, 297182219284540000000000000000000, -222896155981949700000000000000000, 1442409638293778700000000000000000, -403643844286314250000000000000000, 194157629945075180000000000000000, 91413488899197060000000000000000, 200050043821375500000000000000000, -826144031918054800000000000000000, -1686665221598185300000000000000000, 0, 969649780243102100000000000000000, 484824890121552670000000000000000],
    [-66745177079253680000000000000000, -50169296733352500000000000000000, 37140182168303890000000000000000, -297182219284535980000000000000000, -1442409638293779800000000000000000, 222896155981950370000000000000000, 67325854726889315000000000000000, 150235029724162870000000000000000, 402551844017363300000000000000000, 403643844286312860000000000000000, -91413488899195830000000000000000, -194157629945073370000000000000000, 826144031918056700000000000000000, -200050043821374800000000000000000, 1686665221598186200000000000000000, -969649780243102100000000000000000, 0, -484824890121553640000000000000000],
    [-87309478901656280000000000000000, -12974828406857824, 87309478901656210000000000000000, -700826063570852400000000000000000, 314309644881146800000000000000000, -1248252008348704800000000000000000, 700826063570850200000000000000000, 1248252008348705600000000000000000, -314309644881146500000000000000000, 1281532722111482500, 252316814293197630000000000000000, -252316814293199120000000000000000, -860521189680126800000000000000000, 860521189680129200000000000000000, -797785471351964000, -484824890121552670000000000000000, 484824890121553640000000000000000, 0]]]
  x := [[0, 10000000000000000000, 0, 5000000000000000000, 1726731646460114600, 8273268353539885000, 5000000000000000000, 8273268353539885000, 1726731646460114600, 0, 0, 0, 4243860251718814000, 4243860251718814000, 1512279496562372000, 1420050840967779500, 1420050840967779500, 7159898318064442000],
   [0, 0, 10000000000000000000, 0, 0, 0, 5000000000000000000, 1726731646460114600, 8273268353539885000, 5000000000000000000, 8273268353539885000, 1726731646460114600, 1512279496562372000, 4243860251718814000, 4243860251718814000, 7159898318064442000, 1420050840967779500, 1420050840967779500]]
  w := [22825661430496253, 22825661430496253, 22825661430496253, 155040526430225130, 113425925925925860, 113425925925925860, 155040526430225130, 113425925925925860, 113425925925925860, 155040526430225130, 113425925925925860, 113425925925925860, 746766946998399400, 746766946998399400, 746766946998399400, 515181679955693940, 515181679955693940, 515181679955693940]

/-- sbp_operators.hpp: p4Qx_tri 1158-1886, p4Qy_tri 1887-2615; nodes sbp_fe.cpp:741-802. -/
def tri4 : Table where
  dim := 2
  n := 27
  q := [[[-166666666666666660000000000000000, -2143092297355130000000000000000, -1071546148677704000000000000000, -29313964555212767000000000000000, 2098353856334226100000000000000, 183176261682570260000000000000000, 6988077072922807000000000000000, 14274953678259552000000000000000, 10625284661002496000000000000000, 1360887269937187000000000000000, 24415076470778135000000000000000, 11431734437011260000000000000000, -20001976214611117000000000000000, -3857856031010511000000000000000, 24575846626403290000000000000000, -41069932310204120000000000000000, 37887573463723273000000000000000, -13870836087764217000000000000000, 24458688791924120000000000000000, 2599545896303318000000000000000, 22192603521329255000000000000000, 19184413886844530000000000000000, -49709883948692996000000000000000, -35020569314468267000000000000000, -21223910288165860000000000000000, -40696258969420280000000000000000, 39377191516904120000000000000000],
    [2143092297355130000000000000000, 166666666666666660000000000000000, 1071546148677474500000000000000, -2098353856334269000000000000000, 29313964555212667000000000000000, -6988077072922563000000000000000, -183176261682570400000000000000000, 20001976214611050000000000000000, -11431734437011105000000000000000, -24575846626403008000000000000000, 3857856031010372400000000000000, -10625284661003062000000000000000, -14274953678260094000000000000000, -24415076470778070000000000000000, -1360887269937219800000000000000, 41069932310203950000000000000000, 13870836087764620000000000000000, -37887573463722770000000000000000, -24458688791924583000000000000000, -22192603521329177000000000000000, -2599545896303008000000000000000, 49709883948693450000000000000000, -19184413886844207000000000000000, -39377191516904250000000000000000, 40696258969420420000000000000000, 21223910288165476000000000000000, 35020569314467924000000000000000],
    [1071546148677704000000000000000, -1071546148677474500000000000000, 0, -3649669017257229400000000000000, 3649669017257189000000000000000, 23054189200840654000000000000000, -23054189200840854000000000000000, -9333380580676765000000000000000, -9311988340601483000000000000000, 10845933103932933000000000000000, 158600415056167070000000000000000, 9311988340601595000000000000000, 9333380580676894000000000000000, -158600415056166900000000000000000, -10845933103933035000000000000000, -200808367933318020, -27199096222439373000000000000000, 27199096222439633000000000000000, -203604369166331580, 2266085270595509200000000000000, -2266085270595233000000000000000, 13796659026302366000000000000000, -13796659026302210000000000000000, -9013624979273186000000000000000, -20192777630060040000000000000000, 20192777630060130000000000000000, 9013624979272856000000000000000],
    [29313964555212767000000000000000, 2098353856334269000000000000000, 3649669017257229400000000000000, 0, 129474918683135840000000000000000, -161475301213103130000000000000000, -30605809541389205000000000000000, 6701644592236515000000000000000, -67031294899138160000000000000000, 42172196812290690000000000000000, 9408727769745327000000000000000, 22711887822627363000000000000000, -110215919093929850000000000000000, 9237213430462013000000000000000, 118487552336730960000000000000000, -57032981836121720000000000000000, -230632576728889600000000000000000, -81496640633158050000000000000000, -88880770790956550000000000000000, -40265445263732600000000000000000, -55808617849920680000000000000000, 146201735660145180000000000000000, 69008284525010700000000000000000, 175623595247815800000000000000000, -25583955298422475000000000000000, 194717534358726970000000000000000, -9777965518963185000000000000000],
    [-2098353856334226100000000000000, -29313964555212667000000000000000, -3649669017257189000000000000000, -129474918683135840000000000000000, 0, 30605809541389570000000000000000, 161475301213101360000000000000000, 110215919093929570000000000000000, -22711887822627094000000000000000, -118487552336731530000000000000000, -9237213430462837000000000000000, 67031294899138390000000000000000, -6701644592235698000000000000000, -9408727769744460000000000000000, -42172196812290475000000000000000, 57032981836122550000000000000000, 81496640633157700000000000000000, 230632576728889000000000000000000, 88880770790955600000000000000000, 55808617849921410000000000000000, 40265445263733380000000000000000, -69008284525011050000000000000000, -146201735660143700000000000000000, 9777965518963795000000000000000, -194717534358726070000000000000000, 25583955298422527000000000000000, -175623595247816500000000000000000],
    [-183176261682570260000000000000000, 6988077072922563000000000000000, -23054189200840654000000000000000, 161475301213103130000000000000000, -30605809541389570000000000000000, 0, -13114273125185770000000000000000, -10163287730642436000000000000000, 1859047518416638500000000000000, -15231703437219156000000000000000, 46966263084011440000000000000000, -120796186602821090000000000000000, 134732334606742980000000000000000, 77969712516075190000000000000000, -97714775690327760000000000000000, -140240039197963520000000000000000, 138849906134926920000000000000000, 45072042088211290000000000000000, 39642043199859390000000000000000, -49222504395882710000000000000000, -34307928403636144000000000000000, -33849309674018973000000000000000, 94188859839179100000000000000000, 1343954510832465000000000000000, 14522029048587252000000000000000, -190203060531583460000000000000000, 178069758381209100000000000000000],
    [-6988077072922807000000000000000, 183176261682570400000000000000000, 23054189200840854000000000000000, 30605809541389205000000000000000, -161475301213101360000000000000000, 13114273125185770000000000000000, 0, -134732334606744510000000000000000, 120796186602822700000000000000000, 97714775690327470000000000000000, -77969712516074640000000000000000, -1859047518417118800000000000000, 10163287730643323000000000000000, -46966263084011210000000000000000, 15231703437219680000000000000000, 140240039197962320000000000000000, -45072042088211700000000000000000, -138849906134926850000000000000000, -39642043199860950000000000000000, 34307928403634710000000000000000, 49222504395881215000000000000000, -94188859839180110000000000000000, 33849309674017273000000000000000, -178069758381209570000000000000000, 190203060531583000000000000000000, -14522029048587525000000000000000, -1343954510831949300000000000000],
    [-14274953678259552000000000000000, -20001976214611050000000000000000, 9333380580676765000000000000000, -6701644592236515000000000000000, -110215919093929570000000000000000, 10163287730642436000000000000000, 134732334606744510000000000000000, 1387145942588716200000000000000000, -64737459341568480000000000000000, 33169754069413420000000000000000, 9807989008470488000000000000000, 16010243230391511000000000000000, 134062589798278100000000000000000, -162968383415113970000000000000000, -11267775288161758000000000000000, 317792823764146700000000000000000, 68483746824935070000000000000000, -205753687401906070000000000000000, 195923217670390600000000000000000, 19463808076737997000000000000000, 284996740384014270000000000000000, 164217498836609400000000000000000, -31639466556190230000000000000000, -394011555885593500000000000000000, -1456058399757094000000000000000000, -279896758641026420000000000000000, -27775377304478815000000000000000],
    [-10625284661002496000000000000000, 11431734437011105000000000000000, 9311988340601483000000000000000, 67031294899138160000000000000000, 22711887822627094000000000000000, -1859047518416638500000000000000, -120796186602822700000000000000000, 64737459341568480000000000000000, 1387145942588716200000000000000000, -20797820532919000000000000000000, -128305547143689630000000000000000, -220431838187860430000000000000000, 16010243230390885000000000000000, 253219886943475000000000000000000, 19400501161105400000000000000000, -436386264130796540000000000000000, 11450764988814059000000000000000, 236296183130989030000000000000000, 244731295120279540000000000000000, -69416962714217600000000000000000, 140114599820467530000000000000000, -53359332602901460000000000000000, -104273163393210620000000000000000, -1387050115232082200000000000000000, -247809820225449620000000000000000, -41417432075152990000000000000000, 358935033195334400000000000000000],
    [-1360887269937187000000000000000, 24575846626403008000000000000000, -10845933103932933000000000000000, -42172196812290690000000000000000, 118487552336731530000000000000000, 15231703437219156000000000000000, -97714775690327470000000000000000, -33169754069413420000000000000000, 20797820532919000000000000000000, 946187390744617400000000000000000, 6557136562592383000000000000000, 19400501161106480000000000000000, -11267775288160953000000000000000, 93201415953295280000000000000000, -93932526168022840000000000000000, -170234016411934080000000000000000, 197123880904811130000000000000000, -1043494647560957400000000000000000, 38937105748518834000000000000000, -81037665595519190000000000000000, 158363247448645470000000000000000, 283758356200546520000000000000000, -238431778140315400000000000000000, 167618892392155040000000000000000, -254240643256429400000000000000000, 60946409928395120000000000000000, -73284660610717340000000000000000],
    [-24415076470778135000000000000000, -3857856031010372400000000000000, -158600415056167070000000000000000, -9408727769745327000000000000000, 9237213430462837000000000000000, -46966263084011440000000000000000, 77969712516074640000000000000000, -9807989008470488000000000000000, 128305547143689630000000000000000, -6557136562592383000000000000000, 946187390744617400000000000000000, 253219886943473900000000000000000, -162968383415113200000000000000000, -195429551380655900000000000000000, 93201415953295330000000000000000, -904644741426031100000000000000000, 56883841706848294000000000000000, -125161974323721310000000000000000, 109140743052763890000000000000000, -41395622395660000000000000000000, 4629177344882165000000000000000, -58762631562130580000000000000000, 62290364439227955000000000000000, -160051783417249520000000000000000, 133769582718137300000000000000000, -60362019759105740000000000000000, 93555295668963040000000000000000],
    [-11431734437011260000000000000000, 10625284661003062000000000000000, -9311988340601595000000000000000, -22711887822627363000000000000000, -67031294899138390000000000000000, 120796186602821090000000000000000, 1859047518417118800000000000000, -16010243230391511000000000000000, 220431838187860430000000000000000, -19400501161106480000000000000000, -253219886943473900000000000000000, -1387145942588716200000000000000000, -64737459341567640000000000000000, 128305547143688410000000000000000, 20797820532919464000000000000000, 436386264130797650000000000000000, -236296183130988230000000000000000, -11450764988812812000000000000000, -244731295120280070000000000000000, -140114599820468870000000000000000, 69416962714216740000000000000000, 104273163393209770000000000000000, 53359332602901220000000000000000, -358935033195333860000000000000000, 41417432075153285000000000000000, 247809820225450080000000000000000, 1387050115232082700000000000000000],
    [20001976214611117000000000000000, 14274953678260094000000000000000, -9333380580676894000000000000000, 110215919093929850000000000000000, 6701644592235698000000000000000, -134732334606742980000000000000000, -10163287730643323000000000000000, -134062589798278100000000000000000, -16010243230390885000000000000000, 11267775288160953000000000000000, 162968383415113200000000000000000, 64737459341567640000000000000000, -1387145942588716200000000000000000, -9807989008469180000000000000000, -33169754069415553000000000000000, -317792823764147900000000000000000, 205753687401905370000000000000000, -68483746824937410000000000000000, -195923217670389980000000000000000, -284996740384012850000000000000000, -19463808076738713000000000000000, 31639466556190195000000000000000, -164217498836609100000000000000000, 27775377304477206000000000000000, 279896758641025940000000000000000, 1456058399757092000000000000000000, 394011555885594200000000000000000],
    [3857856031010511000000000000000, 24415076470778070000000000000000, 158600415056166900000000000000000, -9237213430462013000000000000000, 9408727769744460000000000000000, -77969712516075190000000000000000, 46966263084011210000000000000000, 162968383415113970000000000000000, -253219886943475000000000000000000, -93201415953295280000000000000000, 195429551380655900000000000000000, -128305547143688410000000000000000, 9807989008469180000000000000000, -946187390744617400000000000000000, 6557136562591793000000000000000, 904644741426029200000000000000000, 125161974323721070000000000000000, -56883841706849650000000000000000, -109140743052764400000000000000000, -4629177344882932400000000000000, 41395622395659310000000000000000, -62290364439228110000000000000000, 58762631562130520000000000000000, -93555295668963160000000000000000, 60362019759104920000000000000000, -133769582718137400000000000000000, 160051783417250400000000000000000],
    [-24575846626403290000000000000000, 1360887269937219800000000000000, 10845933103933035000000000000000, -118487552336730960000000000000000, 42172196812290475000000000000000, 97714775690327760000000000000000, -15231703437219680000000000000000, 11267775288161758000000000000000, -19400501161105400000000000000000, 93932526168022840000000000000000, -93201415953295330000000000000000, -20797820532919464000000000000000, 33169754069415553000000000000000, -6557136562591793000000000000000, -946187390744617400000000000000000, 170234016411934800000000000000000, 1043494647560957000000000000000000, -197123880904810900000000000000000, -38937105748517910000000000000000, -158363247448645400000000000000000, 81037665595518040000000000000000, 238431778140315060000000000000000, -283758356200546760000000000000000, 73284660610718500000000000000000, -60946409928395320000000000000000, 254240643256428670000000000000000, -167618892392154860000000000000000],
    [41069932310204120000000000000000, -41069932310203950000000000000000, 200808367933318020, 57032981836121720000000000000000, -57032981836122550000000000000000, 140240039197963520000000000000000, -140240039197962320000000000000000, -317792823764146700000000000000000, 436386264130796540000000000000000, 170234016411934080000000000000000, 904644741426031100000000000000000, -436386264130797650000000000000000, 317792823764147900000000000000000, -904644741426029200000000000000000, -170234016411934800000000000000000, 0, -228996978543264880000000000000000, 228996978543265680000000000000000, 1309042498249203300, 94957145218439230000000000000000, -94957145218431580000000000000000, 187153536503410420000000000000000, -187153536503408750000000000000000, 865837544422691500000000000000000, -304357816837850240000000000000000, 304357816837853740000000000000000, -865837544422688900000000000000000],
    [-37887573463723273000000000000000, -13870836087764620000000000000000, 27199096222439373000000000000000, 230632576728889600000000000000000, -81496640633157700000000000000000, -138849906134926920000000000000000, 45072042088211700000000000000000, -68483746824935070000000000000000, -11450764988814059000000000000000, -197123880904811130000000000000000, -56883841706848294000000000000000, 236296183130988230000000000000000, -205753687401905370000000000000000, -125161974323721070000000000000000, -1043494647560957000000000000000000, 228996978543264880000000000000000, 0, 457993957086536900000000000000000, -112626602285973360000000000000000, 427561881305668300000000000000000, -207583747504406640000000000000000, -665543493830226000000000000000000, 1168777325146269500000000000000000, 7386831582643038000000000000000, 194540368086054340000000000000000, 302939780723576850000000000000000, -361185676992373740000000000000000],
    [13870836087764217000000000000000, 37887573463722770000000000000000, -27199096222439633000000000000000, 81496640633158050000000000000000, -230632576728889000000000000000000, -45072042088211290000000000000000, 138849906134926850000000000000000, 205753687401906070000000000000000, -236296183130989030000000000000000, 1043494647560957400000000000000000, 125161974323721310000000000000000, 11450764988812812000000000000000, 68483746824937410000000000000000, 56883841706849650000000000000000, 197123880904810900000000000000000, -228996978543265680000000000000000, -457993957086536900000000000000000, 0, 112626602285970600000000000000000, 207583747504412050000000000000000, -427561881305669400000000000000000, -1168777325146265300000000000000000, 665543493830223800000000000000000, 361185676992373100000000000000000, -302939780723578700000000000000000, -194540368086055300000000000000000, -7386831582645241000000000000000],
    [-24458688791924120000000000000000, 24458688791924583000000000000000, 203604369166331580, 88880770790956550000000000000000, -88880770790955600000000000000000, -39642043199859390000000000000000, 39642043199860950000000000000000, -195923217670390600000000000000000, -244731295120279540000000000000000, -38937105748518834000000000000000, -109140743052763890000000000000000, 244731295120280070000000000000000, 195923217670389980000000000000000, 109140743052764400000000000000000, 38937105748517910000000000000000, -1309042498249203300, 112626602285973360000000000000000, -112626602285970600000000000000000, 0, -588725923439762200000000000000000, 588725923439759700000000000000000, -11899398592735064000000000000000, 11899398592735260000000000000000, 1428000041905945200000000000000000, 508808644814663500000000000000000, -508808644814664000000000000000000, -1428000041905944400000000000000000],
    [-2599545896303318000000000000000, 22192603521329177000000000000000, -2266085270595509200000000000000, 40265445263732600000000000000000, -55808617849921410000000000000000, 49222504395882710000000000000000, -34307928403634710000000000000000, -19463808076737997000000000000000, 69416962714217600000000000000000, 81037665595519190000000000000000, 41395622395660000000000000000000, 140114599820468870000000000000000, 284996740384012850000000000000000, 4629177344882932400000000000000, 158363247448645400000000000000000, -94957145218439230000000000000000, -427561881305668300000000000000000, -207583747504412050000000000000000, 588725923439762200000000000000000, 0, 1177451846879524000000000000000000, 317730384375334000000000000000000, -71954213243554390000000000000000, -178053918314073500000000000000000, -189953316906805000000000000000000, -1499954255149502600000000000000000, -191078260439329600000000000000000],
    [-22192603521329255000000000000000, 2599545896303008000000000000000, 2266085270595233000000000000000, 55808617849920680000000000000000, -40265445263733380000000000000000, 34307928403636144000000000000000, -49222504395881215000000000000000, -284996740384014270000000000000000, -140114599820467530000000000000000, -158363247448645470000000000000000, -4629177344882165000000000000000, -69416962714216740000000000000000, 19463808076738713000000000000000, -41395622395659310000000000000000, -81037665595518040000000000000000, 94957145218431580000000000000000, 207583747504406640000000000000000, 427561881305669400000000000000000, -588725923439759700000000000000000, -1177451846879524000000000000000000, 0, 71954213243555590000000000000000, -317730384375335340000000000000000, 191078260439329140000000000000000, 1499954255149499600000000000000000, 189953316906806300000000000000000, 178053918314071700000000000000000],
    [-19184413886844530000000000000000, -49709883948693450000000000000000, -13796659026302366000000000000000, -146201735660145180000000000000000, 69008284525011050000000000000000, 33849309674018973000000000000000, 94188859839180110000000000000000, -164217498836609400000000000000000, 53359332602901460000000000000000, -283758356200546520000000000000000, 58762631562130580000000000000000, -104273163393209770000000000000000, -31639466556190195000000000000000, 62290364439228110000000000000000, -238431778140315060000000000000000, -187153536503410420000000000000000, 665543493830226000000000000000000, 1168777325146265300000000000000000, 11899398592735064000000000000000, -317730384375334000000000000000000, -71954213243555590000000000000000, 0, -1125722833806904500000000000000000, -57654626190226800000000000000000, 265382087939234800000000000000000, 71302417292913510000000000000000, 257065044324442070000000000000000],
    [49709883948692996000000000000000, 19184413886844207000000000000000, 13796659026302210000000000000000, -69008284525010700000000000000000, 146201735660143700000000000000000, -94188859839179100000000000000000, -33849309674017273000000000000000, 31639466556190230000000000000000, 104273163393210620000000000000000, 238431778140315400000000000000000, -62290364439227955000000000000000, -53359332602901220000000000000000, 164217498836609100000000000000000, -58762631562130520000000000000000, 283758356200546760000000000000000, 187153536503408750000000000000000, -1168777325146269500000000000000000, -665543493830223800000000000000000, -11899398592735260000000000000000, 71954213243554390000000000000000, 317730384375335340000000000000000, 1125722833806904500000000000000000, 0, -257065044324440930000000000000000, -71302417292914665000000000000000, -265382087939232470000000000000000, 57654626190225910000000000000000],
    [35020569314468267000000000000000, 39377191516904250000000000000000, 9013624979273186000000000000000, -175623595247815800000000000000000, -9777965518963795000000000000000, -1343954510832465000000000000000, 178069758381209570000000000000000, 394011555885593500000000000000000, 1387050115232082200000000000000000, -167618892392155040000000000000000, 160051783417249520000000000000000, 358935033195333860000000000000000, -27775377304477206000000000000000, 93555295668963160000000000000000, -73284660610718500000000000000000, -865837544422691500000000000000000, -7386831582643038000000000000000, -361185676992373100000000000000000, -1428000041905945200000000000000000, 178053918314073500000000000000000, -191078260439329140000000000000000, 57654626190226800000000000000000, 257065044324440930000000000000000, 0, 562861416903453000000000000000000, 128957043483134280000000000000000, -530764175878463350000000000000000],
    [21223910288165860000000000000000, -40696258969420420000000000000000, 20192777630060040000000000000000, 25583955298422475000000000000000, 194717534358726070000000000000000, -14522029048587252000000000000000, -190203060531583000000000000000000, 1456058399757094000000000000000000, 247809820225449620000000000000000, 254240643256429400000000000000000, -133769582718137300000000000000000, -41417432075153285000000000000000, -279896758641025940000000000000000, -60362019759104920000000000000000, 60946409928395320000000000000000, 304357816837850240000000000000000, -194540368086054340000000000000000, 302939780723578700000000000000000, -508808644814663500000000000000000, 189953316906805000000000000000000, -1499954255149499600000000000000000, -265382087939234800000000000000000, 71302417292914665000000000000000, -562861416903453000000000000000000, 0, 514130088648882800000000000000000, 128957043483141400000000000000000],
    [40696258969420280000000000000000, -21223910288165476000000000000000, -20192777630060130000000000000000, -194717534358726970000000000000000, -25583955298422527000000000000000, 190203060531583460000000000000000, 14522029048587525000000000000000, 279896758641026420000000000000000, 41417432075152990000000000000000, -60946409928395120000000000000000, 60362019759105740000000000000000, -247809820225450080000000000000000, -1456058399757092000000000000000000, 133769582718137400000000000000000, -254240643256428670000000000000000, -304357816837853740000000000000000, -302939780723576850000000000000000, 194540368086055300000000000000000, 508808644814664000000000000000000, 1499954255149502600000000000000000, -189953316906806300000000000000000, -71302417292913510000000000000000, 265382087939232470000000000000000, -128957043483134280000000000000000, -514130088648882800000000000000000, 0, 562861416903451750000000000000000],
    [-39377191516904120000000000000000, -35020569314467924000000000000000, -9013624979272856000000000000000, 9777965518963185000000000000000, 175623595247816500000000000000000, -178069758381209100000000000000000, 1343954510831949300000000000000, 27775377304478815000000000000000, -358935033195334400000000000000000, 73284660610717340000000000000000, -93555295668963040000000000000000, -1387050115232082700000000000000000, -394011555885594200000000000000000, -160051783417250400000000000000000, 167618892392154860000000000000000, 865837544422688900000000000000000, 361185676992373740000000000000000, 7386831582645241000000000000000, 1428000041905944400000000000000000, 191078260439329600000000000000000, -178053918314071700000000000000000, -257065044324442070000000000000000, -57654626190225910000000000000000, 530764175878463350000000000000000, -128957043483141400000000000000000, -562861416903451750000000000000000, 0]],
   [[-166666666666666660000000000000000, -1071546148677513800000000000000, -2143092297355305500000000000000, -20001976214610757000000000000000, 11431734437010990000000000000000, 24575846626403090000000000000000, -3857856031010284000000000000000, 10625284661002303000000000000000, 14274953678259632000000000000000, 24415076470778410000000000000000, 1360887269937318200000000000000, 2098353856334246500000000000000, -29313964555212990000000000000000, 6988077072922343000000000000000, 183176261682570020000000000000000, -13870836087764233000000000000000, 37887573463722960000000000000000, -41069932310203745000000000000000, 22192603521329090000000000000000, 2599545896303290000000000000000, 24458688791924460000000000000000, 39377191516904490000000000000000, -40696258969419980000000000000000, -21223910288165850000000000000000, -35020569314468210000000000000000, -49709883948693290000000000000000, 19184413886844376000000000000000],
    [1071546148677513800000000000000, 0, -1071546148677647200000000000000, 9333380580676642000000000000000, 9311988340601574000000000000000, -10845933103932756000000000000000, -158600415056167270000000000000000, -9311988340601749000000000000000, -9333380580676975000000000000000, 158600415056166900000000000000000, 10845933103932888000000000000000, 3649669017257464000000000000000, -3649669017256901000000000000000, -23054189200840836000000000000000, 23054189200841030000000000000000, 27199096222439603000000000000000, -27199096222439278000000000000000, 256454060252189260, -2266085270595203000000000000000, 2266085270595555600000000000000, 98625593385176960, 9013624979273097000000000000000, 20192777630059972000000000000000, -20192777630060010000000000000000, -9013624979272819000000000000000, -13796659026302166000000000000000, 13796659026302594000000000000000],
    [2143092297355305500000000000000, 1071546148677647200000000000000, 166666666666666660000000000000000, -14274953678260257000000000000000, -10625284661002967000000000000000, -1360887269937581400000000000000, -24415076470778280000000000000000, -11431734437011020000000000000000, 20001976214611182000000000000000, 3857856031009969000000000000000, -24575846626403070000000000000000, 29313964555212530000000000000000, -2098353856334073000000000000000, -183176261682570020000000000000000, -6988077072922683000000000000000, -37887573463723147000000000000000, 13870836087764272000000000000000, 41069932310204050000000000000000, -2599545896303354500000000000000, -22192603521329585000000000000000, -24458688791924492000000000000000, 35020569314467690000000000000000, 21223910288165460000000000000000, 40696258969420500000000000000000, -39377191516904170000000000000000, -19184413886844420000000000000000, 49709883948693065000000000000000],
    [20001976214610757000000000000000, -9333380580676642000000000000000, 14274953678260257000000000000000, -1387145942588716200000000000000000, 64737459341568470000000000000000, -33169754069413988000000000000000, -9807989008469900000000000000000, -16010243230390646000000000000000, -134062589798277510000000000000000, 162968383415112330000000000000000, 11267775288161877000000000000000, 6701644592236799000000000000000, 110215919093930390000000000000000, -10163287730643564000000000000000, -134732334606743660000000000000000, -68483746824935070000000000000000, 205753687401906660000000000000000, -317792823764147940000000000000000, -19463808076739236000000000000000, -284996740384012670000000000000000, -195923217670389000000000000000000, 394011555885594440000000000000000, 1456058399757092500000000000000000, 279896758641026180000000000000000, 27775377304478440000000000000000, -164217498836607860000000000000000, 31639466556189780000000000000000],
    [-11431734437010990000000000000000, -9311988340601574000000000000000, 10625284661002967000000000000000, -64737459341568470000000000000000, -1387145942588716200000000000000000, 20797820532919320000000000000000, 128305547143688000000000000000000, 220431838187860500000000000000000, -16010243230391123000000000000000, -253219886943475070000000000000000, -19400501161104921000000000000000, -67031294899138755000000000000000, -22711887822626590000000000000000, 1859047518416281800000000000000, 120796186602821960000000000000000, -11450764988813710000000000000000, -236296183130989340000000000000000, 436386264130795700000000000000000, 69416962714216410000000000000000, -140114599820467740000000000000000, -244731295120280100000000000000000, 1387050115232081600000000000000000, 247809820225449760000000000000000, 41417432075152970000000000000000, -358935033195335200000000000000000, 53359332602901360000000000000000, 104273163393209780000000000000000],
    [-24575846626403090000000000000000, 10845933103932756000000000000000, 1360887269937581400000000000000, 33169754069413988000000000000000, -20797820532919320000000000000000, -946187390744617400000000000000000, -6557136562592619000000000000000, -19400501161105246000000000000000, 11267775288160968000000000000000, -93201415953294770000000000000000, 93932526168023270000000000000000, 42172196812291420000000000000000, -118487552336731480000000000000000, -15231703437220117000000000000000, 97714775690328270000000000000000, -197123880904812380000000000000000, 1043494647560955800000000000000000, 170234016411933070000000000000000, 81037665595518820000000000000000, -158363247448645540000000000000000, -38937105748518487000000000000000, -167618892392156100000000000000000, 254240643256427970000000000000000, -60946409928396130000000000000000, 73284660610717340000000000000000, -283758356200546700000000000000000, 238431778140314100000000000000000],
    [3857856031010284000000000000000, 158600415056167270000000000000000, 24415076470778280000000000000000, 9807989008469900000000000000000, -128305547143688000000000000000000, 6557136562592619000000000000000, -946187390744617400000000000000000, -253219886943476100000000000000000, 162968383415113550000000000000000, 195429551380655980000000000000000, -93201415953294840000000000000000, 9408727769743286000000000000000, -9237213430462553000000000000000, 46966263084011870000000000000000, -77969712516075020000000000000000, -56883841706849260000000000000000, 125161974323721410000000000000000, 904644741426029200000000000000000, 41395622395657930000000000000000, -4629177344883388000000000000000, -109140743052764930000000000000000, 160051783417249070000000000000000, -133769582718137980000000000000000, 60362019759105060000000000000000, -93555295668964700000000000000000, 58762631562128950000000000000000, -62290364439228415000000000000000],
    [-10625284661002303000000000000000, 9311988340601749000000000000000, 11431734437011020000000000000000, 16010243230390646000000000000000, -220431838187860500000000000000000, 19400501161105246000000000000000, 253219886943476100000000000000000, 1387145942588716200000000000000000, 64737459341566960000000000000000, -128305547143688720000000000000000, -20797820532918784000000000000000, 22711887822627445000000000000000, 67031294899139050000000000000000, -120796186602822110000000000000000, -1859047518417505600000000000000, 236296183130988600000000000000000, 11450764988813625000000000000000, -436386264130795300000000000000000, 140114599820469230000000000000000, -69416962714217425000000000000000, 244731295120281280000000000000000, 358935033195335000000000000000000, -41417432075152565000000000000000, -247809820225449380000000000000000, -1387050115232083000000000000000000, -104273163393209600000000000000000, -53359332602902500000000000000000],
    [-14274953678259632000000000000000, 9333380580676975000000000000000, -20001976214611182000000000000000, 134062589798277510000000000000000, 16010243230391123000000000000000, -11267775288160968000000000000000, -162968383415113550000000000000000, -64737459341566960000000000000000, 1387145942588716200000000000000000, 9807989008469343000000000000000, 33169754069413333000000000000000, -110215919093930460000000000000000, -6701644592236310000000000000000, 134732334606744200000000000000000, 10163287730642525000000000000000, -205753687401905860000000000000000, 68483746824936370000000000000000, 317792823764146900000000000000000, 284996740384012200000000000000000, 19463808076737898000000000000000, 195923217670390250000000000000000, -27775377304476910000000000000000, -279896758641026530000000000000000, -1456058399757092800000000000000000, -394011555885591800000000000000000, -31639466556189506000000000000000, 164217498836608500000000000000000],
    [-24415076470778410000000000000000, -158600415056166900000000000000000, -3857856031009969000000000000000, -162968383415112330000000000000000, 253219886943475070000000000000000, 93201415953294770000000000000000, -195429551380655980000000000000000, 128305547143688720000000000000000, -9807989008469343000000000000000, 946187390744617400000000000000000, -6557136562593320000000000000000, 9237213430463038000000000000000, -9408727769744955000000000000000, 77969712516074630000000000000000, -46966263084011300000000000000000, -125161974323721900000000000000000, 56883841706847840000000000000000, -904644741426030300000000000000000, 4629177344882798500000000000000, -41395622395659480000000000000000, 109140743052764180000000000000000, 93555295668962500000000000000000, -60362019759104950000000000000000, 133769582718137430000000000000000, -160051783417250420000000000000000, 62290364439227330000000000000000, -58762631562129675000000000000000],
    [-1360887269937318200000000000000, -10845933103932888000000000000000, 24575846626403070000000000000000, -11267775288161877000000000000000, 19400501161104921000000000000000, -93932526168023270000000000000000, 93201415953294840000000000000000, 20797820532918784000000000000000, -33169754069413333000000000000000, 6557136562593320000000000000000, 946187390744617400000000000000000, 118487552336730750000000000000000, -42172196812290970000000000000000, -97714775690328110000000000000000, 15231703437220353000000000000000, -1043494647560958000000000000000000, 197123880904811100000000000000000, -170234016411933000000000000000000, 158363247448644680000000000000000, -81037665595520040000000000000000, 38937105748518030000000000000000, -73284660610717190000000000000000, 60946409928395950000000000000000, -254240643256428200000000000000000, 167618892392155760000000000000000, -238431778140314800000000000000000, 283758356200546280000000000000000],
    [-2098353856334246500000000000000, -3649669017257464000000000000000, -29313964555212530000000000000000, -6701644592236799000000000000000, 67031294899138755000000000000000, -42172196812291420000000000000000, -9408727769743286000000000000000, -22711887822627445000000000000000, 110215919093930460000000000000000, -9237213430463038000000000000000, -118487552336730750000000000000000, 0, -129474918683134660000000000000000, 161475301213102200000000000000000, 30605809541389907000000000000000, 230632576728890050000000000000000, 81496640633158690000000000000000, 57032981836123290000000000000000, 40265445263732540000000000000000, 55808617849920725000000000000000, 88880770790956570000000000000000, -175623595247815900000000000000000, 25583955298422957000000000000000, -194717534358724640000000000000000, 9777965518962910000000000000000, -146201735660142840000000000000000, -69008284525010230000000000000000],
    [29313964555212990000000000000000, 3649669017256901000000000000000, 2098353856334073000000000000000, -110215919093930390000000000000000, 22711887822626590000000000000000, 118487552336731480000000000000000, 9237213430462553000000000000000, -67031294899139050000000000000000, 6701644592236310000000000000000, 9408727769744955000000000000000, 42172196812290970000000000000000, 129474918683134660000000000000000, 0, -30605809541388055000000000000000, -161475301213103540000000000000000, -81496640633156960000000000000000, -230632576728891680000000000000000, -57032981836122430000000000000000, -55808617849922430000000000000000, -40265445263732170000000000000000, -88880770790955730000000000000000, -9777965518963114000000000000000, 194717534358725960000000000000000, -25583955298424220000000000000000, 175623595247815200000000000000000, 69008284525009440000000000000000, 146201735660144730000000000000000],
    [-6988077072922343000000000000000, 23054189200840836000000000000000, 183176261682570020000000000000000, 10163287730643564000000000000000, -1859047518416281800000000000000, 15231703437220117000000000000000, -46966263084011870000000000000000, 120796186602822110000000000000000, -134732334606744200000000000000000, -77969712516074630000000000000000, 97714775690328110000000000000000, -161475301213102200000000000000000, 30605809541388055000000000000000, 0, 13114273125184501000000000000000, -138849906134927480000000000000000, -45072042088212760000000000000000, 140240039197961600000000000000000, 49222504395881250000000000000000, 34307928403635160000000000000000, -39642043199860895000000000000000, -1343954510831872600000000000000, -14522029048585547000000000000000, 190203060531583360000000000000000, -178069758381209920000000000000000, 33849309674018270000000000000000, -94188859839178670000000000000000],
    [-183176261682570020000000000000000, -23054189200841030000000000000000, 6988077072922683000000000000000, 134732334606743660000000000000000, -120796186602821960000000000000000, -97714775690328270000000000000000, 77969712516075020000000000000000, 1859047518417505600000000000000, -10163287730642525000000000000000, 46966263084011300000000000000000, -15231703437220353000000000000000, -30605809541389907000000000000000, 161475301213103540000000000000000, -13114273125184501000000000000000, 0, 45072042088213350000000000000000, 138849906134927530000000000000000, -140240039197962720000000000000000, -34307928403635770000000000000000, -49222504395881675000000000000000, 39642043199860436000000000000000, 178069758381210300000000000000000, -190203060531583330000000000000000, 14522029048588089000000000000000, 1343954510832658600000000000000, 94188859839177700000000000000000, -33849309674018210000000000000000],
    [13870836087764233000000000000000, -27199096222439603000000000000000, 37887573463723147000000000000000, 68483746824935070000000000000000, 11450764988813710000000000000000, 197123880904812380000000000000000, 56883841706849260000000000000000, -236296183130988600000000000000000, 205753687401905860000000000000000, 125161974323721900000000000000000, 1043494647560958000000000000000000, -230632576728890050000000000000000, 81496640633156960000000000000000, 138849906134927480000000000000000, -45072042088213350000000000000000, 0, -457993957086534760000000000000000, -228996978543270680000000000000000, -427561881305669300000000000000000, 207583747504409940000000000000000, 112626602285975040000000000000000, -7386831582642810000000000000000, -194540368086054370000000000000000, -302939780723578700000000000000000, 361185676992374900000000000000000, 665543493830226400000000000000000, -1168777325146267700000000000000000],
    [-37887573463722960000000000000000, 27199096222439278000000000000000, -13870836087764272000000000000000, -205753687401906660000000000000000, 236296183130989340000000000000000, -1043494647560955800000000000000000, -125161974323721410000000000000000, -11450764988813625000000000000000, -68483746824936370000000000000000, -56883841706847840000000000000000, -197123880904811100000000000000000, -81496640633158690000000000000000, 230632576728891680000000000000000, 45072042088212760000000000000000, -138849906134927530000000000000000, 457993957086534760000000000000000, 0, 228996978543268900000000000000000, -207583747504408340000000000000000, 427561881305669500000000000000000, -112626602285970590000000000000000, -361185676992373800000000000000000, 302939780723579940000000000000000, 194540368086056500000000000000000, 7386831582644378000000000000000, 1168777325146265500000000000000000, -665543493830226100000000000000000],
    [41069932310203745000000000000000, -256454060252189260, -41069932310204050000000000000000, 317792823764147940000000000000000, -436386264130795700000000000000000, -170234016411933070000000000000000, -904644741426029200000000000000000, 436386264130795300000000000000000, -317792823764146900000000000000000, 904644741426030300000000000000000, 170234016411933000000000000000000, -57032981836123290000000000000000, 57032981836122430000000000000000, -140240039197961600000000000000000, 140240039197962720000000000000000, 228996978543270680000000000000000, -228996978543268900000000000000000, 0, -94957145218435170000000000000000, 94957145218438340000000000000000, -1718620212425334300, -865837544422687300000000000000000, 304357816837850620000000000000000, -304357816837850600000000000000000, 865837544422686100000000000000000, -187153536503408860000000000000000, 187153536503411150000000000000000],
    [-22192603521329090000000000000000, 2266085270595203000000000000000, 2599545896303354500000000000000, 19463808076739236000000000000000, -69416962714216410000000000000000, -81037665595518820000000000000000, -41395622395657930000000000000000, -140114599820469230000000000000000, -284996740384012200000000000000000, -4629177344882798500000000000000, -158363247448644680000000000000000, -40265445263732540000000000000000, 55808617849922430000000000000000, -49222504395881250000000000000000, 34307928403635770000000000000000, 427561881305669300000000000000000, 207583747504408340000000000000000, 94957145218435170000000000000000, 0, -1177451846879524000000000000000000, -588725923439762450000000000000000, 178053918314070440000000000000000, 189953316906807980000000000000000, 1499954255149498200000000000000000, 191078260439328660000000000000000, -317730384375336300000000000000000, 71954213243555860000000000000000],
    [-2599545896303290000000000000000, -2266085270595555600000000000000, 22192603521329585000000000000000, 284996740384012670000000000000000, 140114599820467740000000000000000, 158363247448645540000000000000000, 4629177344883388000000000000000, 69416962714217425000000000000000, -19463808076737898000000000000000, 41395622395659480000000000000000, 81037665595520040000000000000000, -55808617849920725000000000000000, 40265445263732170000000000000000, -34307928403635160000000000000000, 49222504395881675000000000000000, -207583747504409940000000000000000, -427561881305669500000000000000000, -94957145218438340000000000000000, 1177451846879524000000000000000000, 0, 588725923439762900000000000000000, -191078260439330040000000000000000, -1499954255149500400000000000000000, -189953316906807000000000000000000, -178053918314071340000000000000000, -71954213243555845000000000000000, 317730384375333740000000000000000],
    [-24458688791924460000000000000000, -98625593385176960, 24458688791924492000000000000000, 195923217670389000000000000000000, 244731295120280100000000000000000, 38937105748518487000000000000000, 109140743052764930000000000000000, -244731295120281280000000000000000, -195923217670390250000000000000000, -109140743052764180000000000000000, -38937105748518030000000000000000, -88880770790956570000000000000000, 88880770790955730000000000000000, 39642043199860895000000000000000, -39642043199860436000000000000000, -112626602285975040000000000000000, 112626602285970590000000000000000, 1718620212425334300, 588725923439762450000000000000000, -588725923439762900000000000000000, 0, -1428000041905944700000000000000000, -508808644814663700000000000000000, 508808644814665940000000000000000, 1428000041905943800000000000000000, 11899398592735016000000000000000, -11899398592732193000000000000000],
    [-39377191516904490000000000000000, -9013624979273097000000000000000, -35020569314467690000000000000000, -394011555885594440000000000000000, -1387050115232081600000000000000000, 167618892392156100000000000000000, -160051783417249070000000000000000, -358935033195335000000000000000000, 27775377304476910000000000000000, -93555295668962500000000000000000, 73284660610717190000000000000000, 175623595247815900000000000000000, 9777965518963114000000000000000, 1343954510831872600000000000000, -178069758381210300000000000000000, 7386831582642810000000000000000, 361185676992373800000000000000000, 865837544422687300000000000000000, -178053918314070440000000000000000, 191078260439330040000000000000000, 1428000041905944700000000000000000, 0, -562861416903452200000000000000000, -128957043483137830000000000000000, 530764175878466400000000000000000, -57654626190226050000000000000000, -257065044324440470000000000000000],
    [40696258969419980000000000000000, -20192777630059972000000000000000, -21223910288165460000000000000000, -1456058399757092500000000000000000, -247809820225449760000000000000000, -254240643256427970000000000000000, 133769582718137980000000000000000, 41417432075152565000000000000000, 279896758641026530000000000000000, 60362019759104950000000000000000, -60946409928395950000000000000000, -25583955298422957000000000000000, -194717534358725960000000000000000, 14522029048585547000000000000000, 190203060531583330000000000000000, 194540368086054370000000000000000, -302939780723579940000000000000000, -304357816837850620000000000000000, -189953316906807980000000000000000, 1499954255149500400000000000000000, 508808644814663700000000000000000, 562861416903452200000000000000000, 0, -514130088648882900000000000000000, -128957043483138900000000000000000, 265382087939232200000000000000000, -71302417292912950000000000000000],
    [21223910288165850000000000000000, 20192777630060010000000000000000, -40696258969420500000000000000000, -279896758641026180000000000000000, -41417432075152970000000000000000, 60946409928396130000000000000000, -60362019759105060000000000000000, 247809820225449380000000000000000, 1456058399757092800000000000000000, -133769582718137430000000000000000, 254240643256428200000000000000000, 194717534358724640000000000000000, 25583955298424220000000000000000, -190203060531583360000000000000000, -14522029048588089000000000000000, 302939780723578700000000000000000, -194540368086056500000000000000000, 304357816837850600000000000000000, -1499954255149498200000000000000000, 189953316906807000000000000000000, -508808644814665940000000000000000, 128957043483137830000000000000000, 514130088648882900000000000000000, 0, -562861416903450100000000000000000, 71302417292913840000000000000000, -265382087939229870000000000000000],
    [35020569314468210000000000000000, 9013624979272819000000000000000, 39377191516904170000000000000000, -27775377304478440000000000000000, 358935033195335200000000000000000, -73284660610717340000000000000000, 93555295668964700000000000000000, 1387050115232083000000000000000000, 394011555885591800000000000000000, 160051783417250420000000000000000, -167618892392155760000000000000000, -9777965518962910000000000000000, -175623595247815200000000000000000, 178069758381209920000000000000000, -1343954510832658600000000000000, -361185676992374900000000000000000, -7386831582644378000000000000000, -865837544422686100000000000000000, -191078260439328660000000000000000, 178053918314071340000000000000000, -1428000041905943800000000000000000, -530764175878466400000000000000000, 128957043483138900000000000000000, 562861416903450100000000000000000, 0, 257065044324440900000000000000000, 57654626190223550000000000000000],
    [49709883948693290000000000000000, 13796659026302166000000000000000, 19184413886844420000000000000000, 164217498836607860000000000000000, -53359332602901360000000000000000, 283758356200546700000000000000000, -58762631562128950000000000000000, 104273163393209600000000000000000, 31639466556189506000000000000000, -62290364439227330000000000000000, 238431778140314800000000000000000, 146201735660142840000000000000000, -69008284525009440000000000000000, -33849309674018270000000000000000, -94188859839177700000000000000000, -665543493830226400000000000000000, -1168777325146265500000000000000000, 187153536503408860000000000000000, 317730384375336300000000000000000, 71954213243555845000000000000000, -11899398592735016000000000000000, 57654626190226050000000000000000, -265382087939232200000000000000000, -71302417292913840000000000000000, -257065044324440900000000000000000, 0, 1125722833806903800000000000000000],
    [-19184413886844376000000000000000, -13796659026302594000000000000000, -49709883948693065000000000000000, -31639466556189780000000000000000, -104273163393209780000000000000000, -238431778140314100000000000000000, 62290364439228415000000000000000, 53359332602902500000000000000000, -164217498836608500000000000000000, 58762631562129675000000000000000, -283758356200546280000000000000000, 69008284525010230000000000000000, -146201735660144730000000000000000, 94188859839178670000000000000000, 33849309674018210000000000000000, 1168777325146267700000000000000000, 665543493830226100000000000000000, -187153536503411150000000000000000, -71954213243555860000000000000000, -317730384375333740000000000000000, 11899398592732193000000000000000, 257065044324440470000000000000000, 71302417292912950000000000000000, 265382087939229870000000000000000, -57654626190223550000000000000000, -1125722833806903800000000000000000, 0]]]
  x := [[0, 10000000000000000000, 0, 3573842417596775340, 6426157582403224660, 1174723380352675760, 8825276619647324240, 6426157582403224660, 3573842417596775340, 8825276619647324240, 1174723380352675760, 0, 0, 0, 0, 1036775081428051720, 1036775081428051720, 7926449837143896280, 2653313804842096780, 2653313804842096780, 4693372390315806440, 5870855671333673480, 3246404722650514940, 3246404722650514940, 5870855671333673480, 882739606015811030, 882739606015811030],
   [0, 0, 10000000000000000000, 0, 0, 0, 0, 3573842417596775340, 6426157582403224660, 1174723380352675760, 8825276619647324240, 6426157582403224660, 3573842417596775340, 8825276619647324240, 1174723380352675760, 7926449837143896280, 1036775081428051720, 1036775081428051720, 4693372390315806440, 2653313804842096780, 2653313804842096780, 882739606015811030, 882739606015811030, 5870855671333673480, 3246404722650514940, 3246404722650514940, 5870855671333673480]]
  w := [10903939049934710, 10903939049934710, 10903939049934710, 69669428714637000, 69669428714637000, 55197476373571060, 55197476373571060, 69669428714637000, 69669428714637000, 55197476373571060, 55197476373571060, 69669428714637000, 69669428714637000, 55197476373571060, 55197476373571060, 283971906639114910, 283971906639114910, 283971906639114910, 399600480278518090, 399600480278518090, 399600480278518090, 361228265261341680, 361228265261341680, 361228265261341680, 361228265261341680, 361228265261341680, 361228265261341680]

/-- sbp_operators.hpp: p0Qx_tet 2616-2631, p0Qy_tet 2632-2647, p0Qz_tet 2648-2663; nodes sbp_fe.cpp:939-948. -/
def tet0 : Table where
  dim := 3
  n := 4
  q := [[[-833333333333333300000000000000000, 276648039195433740000000000000000, -24084195065185060000000000000000, 580769489203084900000000000000000],
    [-276648039195433740000000000000000, 833333333333333300000000000000000, -580769489072725940000000000000000, 24084194934826420000000000000000],
    [24084195065185060000000000000000, 580769489072725940000000000000000, 0, -604853684137910750000000000000000],
    [-580769489203084900000000000000000, -24084194934826420000000000000000, 604853684137910750000000000000000, 0]],
   [[-833333333333333300000000000000000, 580769491075755200000000000000000, 276648037164806020000000000000000, -24084194907227595000000000000000],
    [-580769491075755200000000000000000, 0, -24084194889191952000000000000000, 604853685964947000000000000000000],
    [-276648037164806020000000000000000, 24084194889191952000000000000000, 833333333333333300000000000000000, -580769491057719500000000000000000],
    [24084194907227595000000000000000, -604853685964947000000000000000000, 580769491057719500000000000000000, 0]],
   [[-833333333333333300000000000000000, -24084194887643400000000000000000, 580769491070014000000000000000000, 276648037150962960000000000000000],
    [24084194887643400000000000000000, 0, -604853685963827260000000000000000, 580769491076183900000000000000000],
    [-580769491070014000000000000000000, 604853685963827260000000000000000, 0, -24084194893813430000000000000000],
    [-276648037150962960000000000000000, -580769491076183900000000000000000, 24084194893813430000000000000000, 833333333333333300000000000000000]]]
  x := [[0, 10000000000000000000, 0, 0],
   [0, 0, 10000000000000000000, 0],
   [0, 0, 0, 10000000000000000000]]
  w := [416666666666666640, 416666666666666640, 416666666666666640, 416666666666666640]

/-- sbp_operators.hpp: p1Qx_tet 2664-2965, p1Qy_tet 2966-3164, p1Qz_tet 3165-3363; nodes sbp_fe.cpp:949-988. -/
def tet1 : Table where
  dim := 3
  n := 14
  q := [[[-125000000000000000000000000000000, -48247045432609200000000000000000, -37010635233693700000000000000000, -42763913353824500000000000000000, 47983297108189700000000000000000, -21866293372805700000000000000000, -21866295219119800000000000000000, -48955545007148300000000000000000, -48955546461137800000000000000000, -33457516289819600000000000000000, 91553742069408200000000000000000, 80468479390953800000000000000000, 112688555556227000000000000000000, 95428716245379200000000000000000],
    [48247045432609200000000000000000, 125000000000000000000000000000000, 41056012701217800000000000000000, 35302731151260300000000000000000, -47878990058633200000000000000000, 48955546298524200000000000000000, 48955547565480300000000000000000, 21866293442288100000000000000000, 21866294884718700000000000000000, 36925474843870900000000000000000, -80468478222407500000000000000000, -91553744891817700000000000000000, -95506946280657800000000000000000, -112766786866451000000000000000000],
    [37010635233693700000000000000000, -41056012701217800000000000000000, 0, 46476986660331900000000000000000, -23705994114554300000000000000000, -41437595079722300000000000000000, -8147838016391150000000000000000, 86823629420187900000000000000000, -62066716135303300000000000000000, -46306711444933300000000000000000, 133542567096031000000000000000000, -149220229203292000000000000000000, 51028600521206700000000000000000, 17058677763961900000000000000000],
    [42763913353824500000000000000000, -35302731151260300000000000000000, -46476986660331900000000000000000, 0, 42524292487754700000000000000000, 62486653563952600000000000000000, -76761323522201200000000000000000, 8567776825941590000000000000000, 51499894762965200000000000000000, 45563762013638400000000000000000, 155839108214491000000000000000000, -126923685046115000000000000000000, -59368923049981200000000000000000, -64411751792681100000000000000000],
    [-47983297108189700000000000000000, 47878990058633200000000000000000, 23705994114554300000000000000000, -42524292487754700000000000000000, 0, 3695264704644920000000000000000, 6930858555879880000000000000000, -7250942164434070000000000000000, -4015359018492750000000000000000, 19128305840580800000000000000000, -7678058350650900000000000000000, 7273825327536020000000000000000, 94911402419429000000000000000000, -94072691891734600000000000000000],
    [21866293372805700000000000000000, -48955546298524200000000000000000, 41437595079722300000000000000000, -62486653563952600000000000000000, -3695264704644920000000000000000, -333333333333333000000000000000000, -387535464263229000000000, 14380876892745200000000000000000, -116530120364997000000000000000000, 85392114826664500000000000000000, 81878191539748300000000000000000, -23607533258419700000000000000000, 175896311299331000000000000000000, 167757068900390000000000000000000],
    [21866295219119800000000000000000, -48955547565480300000000000000000, 8147838016391150000000000000000, 76761323522201200000000000000000, -6930858555879880000000000000000, 387535464263229000000000, -333333333333333000000000000000000, -116530121887156000000000000000000, 14380882401685300000000000000000, -22183901958182700000000000000000, 81878192736494800000000000000000, -23607536583919800000000000000000, 223149902615567000000000000000000, 125356864984956000000000000000000],
    [48955545007148300000000000000000, -21866293442288100000000000000000, -86823629420187900000000000000000, -8567776825941590000000000000000, 7250942164434070000000000000000, -14380876892745200000000000000000, 116530121887156000000000000000000, 333333333333333000000000000000000, 1918303765618620000000000, 32826185374350900000000000000000, 23607533234701600000000000000000, -81878187884873200000000000000000, -140060478641719000000000000000000, -208926419811672000000000000000000],
    [48955546461137800000000000000000, -21866294884718700000000000000000, 62066716135303300000000000000000, -51499894762965200000000000000000, 4015359018492750000000000000000, 116530120364997000000000000000000, -14380882401685300000000000000000, -1918303765618620000000000, 333333333333333000000000000000000, -74749829670464200000000000000000, 23607533759545900000000000000000, -81878191257550600000000000000000, -153533590104874000000000000000000, -190599924072247000000000000000000],
    [33457516289819600000000000000000, -36925474843870900000000000000000, 46306711444933300000000000000000, -45563762013638400000000000000000, -19128305840580800000000000000000, -85392114826664500000000000000000, 22183901958182700000000000000000, -32826185374350900000000000000000, 74749829670464200000000000000000, 0, 139903824920123000000000000000000, -153343703891160000000000000000000, 4730567568981820000000000000000, 51847194937760500000000000000000],
    [-91553742069408200000000000000000, 80468478222407500000000000000000, -133542567096031000000000000000000, -155839108214491000000000000000000, 7678058350650900000000000000000, -81878191539748300000000000000000, -81878192736494800000000000000000, -23607533234701600000000000000000, -23607533759545900000000000000000, -139903824920123000000000000000000, 1125000000000000000000000000000000, -164350479399813000000000000000000, -125047868832466000000000000000000, -191937494770234000000000000000000],
    [-80468479390953800000000000000000, 91553744891817700000000000000000, 149220229203292000000000000000000, 126923685046115000000000000000000, -7273825327536020000000000000000, 23607533258419700000000000000000, 23607536583919800000000000000000, 81878187884873200000000000000000, 81878191257550600000000000000000, 153343703891160000000000000000000, 164350479399813000000000000000000, -1125000000000000000000000000000000, 191634317862896000000000000000000, 124744695438632000000000000000000],
    [-112688555556227000000000000000000, 95506946280657800000000000000000, -51028600521206700000000000000000, 59368923049981200000000000000000, -94911402419429000000000000000000, -175896311299331000000000000000000, -223149902615567000000000000000000, 140060478641719000000000000000000, 153533590104874000000000000000000, -4730567568981820000000000000000, 125047868832466000000000000000000, -191634317862896000000000000000000, 0, 280521850933940000000000000000000],
    [-95428716245379200000000000000000, 112766786866451000000000000000000, -17058677763961900000000000000000, 64411751792681100000000000000000, 94072691891734600000000000000000, -167757068900390000000000000000000, -125356864984956000000000000000000, 208926419811672000000000000000000, 190599924072247000000000000000000, -51847194937760500000000000000000, 191937494770234000000000000000000, -124744695438632000000000000000000, -280521850933940000000000000000000, 0]],
   [[-125000000000000000000000000000000, -41083038630692000000000000000000, -48247044834978900000000000000000, -35325311328319100000000000000000, -21866293082737000000000000000000, 47880505688728800000000000000000, -21866294668903000000000000000000, -48955546009253400000000000000000, -36875111126998200000000000000000, -48955546201887500000000000000000, 91553743133716300000000000000000, 95499138974482000000000000000000, 80468479873441700000000000000000, 112772318213400000000000000000000],
    [41083038630692000000000000000000, 0, -36983608719435100000000000000000, 48923198987553200000000000000000, -28989941938092800000000000000000, 21090588344175000000000000000000, 4398892870249300000000000000000, 99271282574126600000000000000000, -50561816038619900000000000000000, -49519984642153000000000000000000, 149324960771121000000000000000000, -19132363172374000000000000000000, -133437832845621000000000000000000, -45466414821620900000000000000000],
    [48247044834978900000000000000000, 36983608719435100000000000000000, 125000000000000000000000000000000, 42741335056806100000000000000000, 48955546097535700000000000000000, -47981782067559900000000000000000, 48955546031781700000000000000000, 21866293398569600000000000000000, 33507878983699000000000000000000, 21866294157423000000000000000000, -80468479582053100000000000000000, -112696361334657000000000000000000, -91553743013063000000000000000000, -95423181282895800000000000000000],
    [35325311328319100000000000000000, -48923198987553200000000000000000, -42741335056806100000000000000000, 0, 39749927321941400000000000000000, -39362328691378100000000000000000, -99679026057958600000000000000000, -14168949254607600000000000000000, 51283196009499700000000000000000, 28582196266631400000000000000000, 127011185998819000000000000000000, 58460871274502500000000000000000, -155751606600581000000000000000000, 60213756449170000000000000000000],
    [21866293082737000000000000000000, 28989941938092800000000000000000, -48955546097535700000000000000000, -39749927321941400000000000000000, -333333333333333000000000000000000, -4009457976733310000000000000000, 22773136051619900000000, 14380877050861500000000000000000, 74945946708057400000000000000000, -116530121128520000000000000000000, 81878189951364800000000000000000, 123355388508199000000000000000000, -23607534897205000000000000000000, 220769283493183000000000000000000],
    [-47880505688728800000000000000000, -21090588344175000000000000000000, 47981782067559900000000000000000, 39362328691378100000000000000000, 4009457976733310000000000000000, 0, 7247548952490420000000000000000, -6936751616288860000000000000000, -18572746124191300000000000000000, -3698666372613230000000000000000, -7279695635962500000000000000000, -95943684220310000000000000000000, 7672189098609880000000000000000, 95129331215498200000000000000000],
    [21866294668903000000000000000000, -4398892870249300000000000000000, -48955546031781700000000000000000, 99679026057958600000000000000000, -22773136051619900000000, -7247548952490420000000000000000, -333333333333333000000000000000000, -116530121294682000000000000000000, -32713217701277300000000000000000, 14380879448401700000000000000000, 81878191153690200000000000000000, 170190772892477000000000000000000, -23607534840729800000000000000000, 178791030825886000000000000000000],
    [48955546009253400000000000000000, -99271282574126600000000000000000, -21866293398569600000000000000000, 14168949254607600000000000000000, -14380877050861500000000000000000, 6936751616288860000000000000000, 116530121294682000000000000000000, 333333333333333000000000000000000, 22380018289761400000000000000000, 745347663254868000000000, 23607534876760500000000000000000, -192601403383746000000000000000000, -81878189751523300000000000000000, -155914209261207000000000000000000],
    [36875111126998200000000000000000, 50561816038619900000000000000000, -33507878983699000000000000000000, -51283196009499700000000000000000, -74945946708057400000000000000000, 18572746124191300000000000000000, 32713217701277300000000000000000, -22380018289761400000000000000000, 0, 85279144541261000000000000000000, 153148534094334000000000000000000, -36188494922198300000000000000000, -140098994507443000000000000000000, -18746040206021900000000000000000],
    [48955546201887500000000000000000, 49519984642153000000000000000000, -21866294157423000000000000000000, -28582196266631400000000000000000, 116530121128520000000000000000000, 3698666372613230000000000000000, -14380879448401700000000000000000, -745347663254868000000000, -85279144541261000000000000000000, 333333333333333000000000000000000, 23607534743870000000000000000000, -206492718830116000000000000000000, -81878191129365500000000000000000, -137165761303830000000000000000000],
    [-91553743133716300000000000000000, -149324960771121000000000000000000, 80468479582053100000000000000000, -127011185998819000000000000000000, -81878189951364800000000000000000, 7279695635962500000000000000000, -81878191153690200000000000000000, -23607534876760500000000000000000, -153148534094334000000000000000000, -23607534743870000000000000000000, 1125000000000000000000000000000000, -191664571191392000000000000000000, -164350480824309000000000000000000, -124723248478638000000000000000000],
    [-95499138974482000000000000000000, 19132363172374000000000000000000, 112696361334657000000000000000000, -58460871274502500000000000000000, -123355388508199000000000000000000, 95943684220310000000000000000000, -170190772892477000000000000000000, 192601403383746000000000000000000, 36188494922198300000000000000000, 206492718830116000000000000000000, 191664571191392000000000000000000, 0, -125017618657640000000000000000000, -282195806747492000000000000000000],
    [-80468479873441700000000000000000, 133437832845621000000000000000000, 91553743013063000000000000000000, 155751606600581000000000000000000, 23607534897205000000000000000000, -7672189098609880000000000000000, 23607534840729800000000000000000, 81878189751523300000000000000000, 140098994507443000000000000000000, 81878191129365500000000000000000, 164350480824309000000000000000000, 125017618657640000000000000000000, -1125000000000000000000000000000000, 191958941904570000000000000000000],
    [-112772318213400000000000000000000, 45466414821620900000000000000000, 95423181282895800000000000000000, -60213756449170000000000000000000, -220769283493183000000000000000000, -95129331215498200000000000000000, -178791030825886000000000000000000, 155914209261207000000000000000000, 18746040206021900000000000000000, 137165761303830000000000000000000, 124723248478638000000000000000000, 282195806747492000000000000000000, -191958941904570000000000000000000, 0]],
   [[-125000000000000000000000000000000, -42971959698583000000000000000000, -37266876029765000000000000000000, -48247044611951500000000000000000, -21866294023234600000000000000000, -21866294894587100000000000000000, 47997476970367600000000000000000, -32986138583546700000000000000000, -48955547599216800000000000000000, -48955546534674100000000000000000, 91553743117053100000000000000000, 95490375600445700000000000000000, 112605626896684000000000000000000, 80468479391008000000000000000000],
    [42971959698583000000000000000000, 0, 48475897307014700000000000000000, -35094686472129100000000000000000, -28842170781236100000000000000000, 15844384683186000000000000000000, 41917101764131400000000000000000, -50929388515594000000000000000000, 99419051266204700000000000000000, -38074491237607000000000000000000, 156645380915361000000000000000000, -66216419758491200000000000000000, -59999208396532000000000000000000, -126117410472890000000000000000000],
    [37266876029765000000000000000000, -48475897307014700000000000000000, 0, -40799771811057200000000000000000, 50872208288003300000000000000000, -98884951429125100000000000000000, -17983097393856200000000000000000, 49984460995608000000000000000000, -3046668828246160000000000000000, 29376273739020900000000000000000, 134535621036773000000000000000000, 42977876478906200000000000000000, 12404242675157700000000000000000, -148227172473935000000000000000000],
    [48247044611951500000000000000000, 35094686472129100000000000000000, 40799771811057200000000000000000, 125000000000000000000000000000000, 48955546583827200000000000000000, 48955544495757000000000000000000, -47864810888711000000000000000000, 37396851289868300000000000000000, 21866292761442100000000000000000, 21866292438220500000000000000000, -80468479420335200000000000000000, -112705124206448000000000000000000, -95589871806601500000000000000000, -91553744142158300000000000000000],
    [21866294023234600000000000000000, 28842170781236100000000000000000, -50872208288003300000000000000000, -48955546583827200000000000000000, -333333333333333000000000000000000, 1417371319053710000000000, -3665314165223030000000000000000, 86388069212269100000000000000000, 14380880276958800000000000000000, -116530120982812000000000000000000, 81878191168607200000000000000000, 139559044219680000000000000000000, 204049407248363000000000000000000, -23607534994520200000000000000000],
    [21866294894587100000000000000000, -15844384683186000000000000000000, 98884951429125100000000000000000, -48955544495757000000000000000000, -1417371319053710000000000, -333333333333333000000000000000000, -6873796159903280000000000000000, -20286772207660500000000000000000, -116530121792696000000000000000000, 14380876664960000000000000000000, 81878189997637100000000000000000, 153933333925086000000000000000000, 194487842074561000000000000000000, -23607534896047700000000000000000],
    [-47997476970367600000000000000000, -41917101764131400000000000000000, 17983097393856200000000000000000, 47864810888711000000000000000000, 3665314165223030000000000000000, 6873796159903280000000000000000, 0, 24328283938186000000000000000000, -7280898880768990000000000000000, -4072414770696070000000000000000, -7733005004776650000000000000000, -94129666618349700000000000000000, 95196380012743200000000000000000, 7218881450466470000000000000000],
    [32986138583546700000000000000000, 50929388515594000000000000000000, -49984460995608000000000000000000, -37396851289868300000000000000000, -86388069212269100000000000000000, 20286772207660500000000000000000, -24328283938186000000000000000000, 0, -33822143479935600000000000000000, 72852700250111800000000000000000, 138077024273955000000000000000000, 27337655867430300000000000000000, 44620635058788300000000000000000, -155170505841219000000000000000000],
    [48955547599216800000000000000000, -99419051266204700000000000000000, 3046668828246160000000000000000, -21866292761442100000000000000000, -14380880276958800000000000000000, 116530121792696000000000000000000, 7280898880768990000000000000000, 33822143479935600000000000000000, 333333333333333000000000000000000, -763619467138155000000000, 23607535124991500000000000000000, -176397747840120000000000000000000, -172634085597715000000000000000000, -81878190533127400000000000000000],
    [48955546534674100000000000000000, 38074491237607000000000000000000, -29376273739020900000000000000000, -21866292438220500000000000000000, 116530120982812000000000000000000, -14380876664960000000000000000000, 4072414770696070000000000000000, -72852700250111800000000000000000, 763619467138155000000000, 333333333333333000000000000000000, 23607534284968100000000000000000, -222750158573128000000000000000000, -121468951120099000000000000000000, -81878189122169700000000000000000],
    [-91553743117053100000000000000000, -156645380915361000000000000000000, -134535621036773000000000000000000, 80468479420335200000000000000000, -81878191168607200000000000000000, -81878189997637100000000000000000, 7733005004776650000000000000000, -138077024273955000000000000000000, -23607535124991500000000000000000, -23607534284968100000000000000000, 1125000000000000000000000000000000, -191698533103178000000000000000000, -125369250450925000000000000000000, -164350480951662000000000000000000],
    [-95490375600445700000000000000000, 66216419758491200000000000000000, -42977876478906200000000000000000, 112705124206448000000000000000000, -139559044219680000000000000000000, -153933333925086000000000000000000, 94129666618349700000000000000000, -27337655867430300000000000000000, 176397747840120000000000000000000, 222750158573128000000000000000000, 191698533103178000000000000000000, 0, -279615707170791000000000000000000, -124983656837377000000000000000000],
    [-112605626896684000000000000000000, 59999208396532000000000000000000, -12404242675157700000000000000000, 95589871806601500000000000000000, -204049407248363000000000000000000, -194487842074561000000000000000000, -95196380012743200000000000000000, -44620635058788300000000000000000, 172634085597715000000000000000000, 121468951120099000000000000000000, 125369250450925000000000000000000, 279615707170791000000000000000000, 0, -191312940576368000000000000000000],
    [-80468479391008000000000000000000, 126117410472890000000000000000000, 148227172473935000000000000000000, 91553744142158300000000000000000, 23607534994520200000000000000000, 23607534896047700000000000000000, -7218881450466470000000000000000, 155170505841219000000000000000000, 81878190533127400000000000000000, 81878189122169700000000000000000, 164350480951662000000000000000000, 124983656837377000000000000000000, 191312940576368000000000000000000, -1125000000000000000000000000000000]]]
  x := [[0, 10000000000000000000, 0, 0, 5000000000000000000, 0, 0, 5000000000000000000, 5000000000000000000, 0, 3333333333333333000, 0, 3333333333333333000, 3333333333333333000],
   [0, 0, 10000000000000000000, 0, 0, 5000000000000000000, 0, 5000000000000000000, 0, 5000000000000000000, 3333333333333333000, 3333333333333333000, 0, 3333333333333333000],
   [0, 0, 0, 10000000000000000000, 0, 0, 5000000000000000000, 0, 5000000000000000000, 5000000000000000000, 3333333333333333000, 3333333333333333000, 3333333333333333000, 0]]
  w := [26679395344347597, 26679395344347597, 26679395344347597, 26679395344347597, 39966056859517490, 39966056859517490, 39966056859517490, 39966056859517490, 39966056859517490, 39966056859517490, 330038186033042300, 330038186033042300, 330038186033042300, 330038186033042300]

/-- sbp_operators.hpp:8-8 (p0Qx_seg), rows, in units of 10^-34. -/
def seg0Q : List (List ℤ) :=
  [[-5000000000000000000000000000000000, 5000000000000000000000000000000000],
   [-5000000000000000000000000000000000, 5000000000000000000000000000000000]]

/-- sbp_operators.hpp:10-18 (p1Qx_seg), rows, in units of 10^-34. -/
def seg1Q : List (List ℤ) :=
  [[-5000000000000002000000000000000000, -1666666666666665700000000000000000, 6666666666666667000000000000000000],
   [1666666666666665700000000000000000, 5000000000000002000000000000000000, -6666666666666664000000000000000000],
   [-6666666666666667000000000000000000, 6666666666666664000000000000000000, 0]]

/-- sbp_operators.hpp:20-35 (p2Qx_seg), rows, in units of 10^-34. -/
def seg2Q : List (List ℤ) :=
  [[-5000000000000000000000000000000000, 833333333333332700000000000000000, 6741808286457891000000000000000000, -2575141619791229700000000000000000],
   [-833333333333332700000000000000000, 5000000000000000000000000000000000, 2575141619791231000000000000000000, -6741808286457898000000000000000000],
   [-6741808286457891000000000000000000, -2575141619791231000000000000000000, 0, 9316949906249126000000000000000000],
   [2575141619791229700000000000000000, 6741808286457898000000000000000000, -9316949906249126000000000000000000, 0]]

/-- sbp_operators.hpp:37-61 (p3Qx_seg), rows, in units of 10^-34. -/
def seg3Q : List (List ℤ) :=
  [[-5000000000000002000000000000000000, -500000000000001000000000000000000, 6756502488724212000000000000000000, 1410164177942404600000000000000000, -2666666666666720500000000000000000],
   [500000000000001000000000000000000, 5000000000000002000000000000000000, -1410164177942405400000000000000000, -6756502488724213000000000000000000, 2666666666666725500000000000000000],
   [-6756502488724212000000000000000000, 1410164177942405400000000000000000, 0, -4158263130608080000000000000000000, 9504601441389896000000000000000000],
   [-1410164177942404600000000000000000, 6756502488724213000000000000000000, 4158263130608080000000000000000000, 0, -9504601441389896000000000000000000],
   [2666666666666720500000000000000000, -2666666666666725500000000000000000, -9504601441389896000000000000000000, 9504601441389896000000000000000000, 0]]

/-- sbp_operators.hpp:63-98 (p4Qx_seg), rows, in units of 10^-34. -/
def seg4Q : List (List ℤ) :=
  [[-5000000000000000000000000000000000, 333333333333333300000000000000000, 6760943957546480000000000000000000, -899942209460334900000000000000000, -2690791513536877600000000000000000, 1496456432117423400000000000000000],
   [-333333333333333300000000000000000, 5000000000000000000000000000000000, 899942209460340300000000000000000, -6760943957546471000000000000000000, -1496456432117422300000000000000000, 2690791513536875400000000000000000],
   [-6760943957546480000000000000000000, -899942209460340300000000000000000, 0, 2473513643130600400000000000000000, 9550538393084307000000000000000000, -4363165869208130400000000000000000],
   [899942209460334900000000000000000, 6760943957546471000000000000000000, -2473513643130600400000000000000000, 0, 4363165869208125400000000000000000, -9550538393084305000000000000000000],
   [2690791513536877600000000000000000, 1496456432117422300000000000000000, -9550538393084307000000000000000000, -4363165869208125400000000000000000, 0, 9726456316638089000000000000000000],
   [-1496456432117423400000000000000000, -2690791513536875400000000000000000, 4363165869208130400000000000000000, 9550538393084305000000000000000000, -9726456316638089000000000000000000, 0]]

end Verif.Sbp

import Verif.BSpline

/-!
GENERATED by tools/gen_bh.py: the spline data of the shipped steels,
/repo/src/common/material_library.cpp, as exact decimals (`double` rounding not modelled).
-/

namespace Verif.BSpline

/-- `hiperco50`, model `lognu`. material_library.cpp:12-39. -/
def hiperco50LogNu : Data where
  cps := [5401 / 1000, 10933 / 2500, 39991 / 10000, 38783 / 10000, 9623 / 2500, 19441 / 5000, 43043 / 10000, 387 / 80, 10251 / 1000, 67923 / 5000, 16981 / 1250]
  knots := [0, 0, 0, 6209 / 10000, 9571 / 10000, 2879 / 2500, 673 / 500, 993 / 625, 18193 / 10000, 23539 / 10000, 1087 / 400, 7 / 2, 7 / 2, 7 / 2]
  degree := 2

/-- `hiperco50`, model `bh`. material_library.cpp:42-106. -/
def hiperco50BH : Data where
  cps := [0, 76093577 / 5000000, 244069859 / 10000000, 287543851 / 10000000, 2053589 / 62500, 88482797 / 2500000, 23963063 / 625000, 20532139 / 500000, 438435871 / 10000000, 464801737 / 10000000, 248158591 / 5000000, 529859037 / 10000000, 566857479 / 10000000, 615933673 / 10000000, 332410703 / 5000000, 775969027 / 10000000, 487665061 / 5000000, 121434401 / 1000000, 152150611 / 1000000, 38982563 / 200000, 40756553 / 125000, 316221363 / 1000000, 23498453 / 20000, 118779731 / 50000, 370126207 / 100000, 718675547 / 100000, 33838801 / 2500, 54312123 / 2500, 4973592 / 125]
  knots := [0, 0, 0, 0, 1 / 5, 3 / 10, 2 / 5, 1 / 2, 3 / 5, 7 / 10, 4 / 5, 9 / 10, 1, 11 / 10, 1497 / 1250, 13 / 10, 7 / 5, 591 / 400, 8 / 5, 17119 / 10000, 9 / 5, 19 / 10, 2, 21 / 10, 5467 / 2500, 9 / 4, 23 / 10, 59 / 25, 12 / 5, 5 / 2, 5 / 2, 5 / 2, 5 / 2]
  degree := 3

/-- `team13`, model `bh`. material_library.cpp:151-175. -/
def team13BH : Data where
  cps := [0, 0, 0, 0, 979 / 10000, 13841 / 10000, 1800000001641453 / 1000000000000000, 499999999999979 / 250000000000000, 111 / 50, 111 / 50, 111 / 50, 111 / 50]
  knots := [0, 16446362274610001 / 100000000000000, 1506773159053 / 5000000000, 50552556387 / 312500000, 9617045565209 / 10000000000, 135078106536777 / 5000000000, 1384240810362731 / 10000000000, 1967808935033237 / 10000000000]
  degree := 3

end Verif.BSpline

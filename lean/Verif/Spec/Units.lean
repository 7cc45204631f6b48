import Verif.Py.Str
/-
The units of the specification, written out from /repo/math_evaluation/core/constants.py independently of the tables of
the model.
-/

namespace Verif

/-- The long units, constants.py:24-76. -/
def listedLong : List Str := [
  s%"立方厘米", s%"立方分米", s%"平方公里", s%"平方英尺", s%"平方英里", s%"平方英寸", s%"平方英寻", s%"平方英尺", s%"千公里", s%"平方米", s%"立方米",
  s%"千米", s%"厘米", s%"分米", s%"海里", s%"毫米", s%"公里", s%"英里", s%"公尺", s%"英尺", s%"元", s%"分", s%"角", s%"米", s%"度",
  s%"里", s%"升", s%"centimeter", s%"second", s%"degree", s%"dollar", s%"minute", s%"radian", s%"square",
  s%"pound", s%"month", s%"units", s%"meter", s%"edges", s%"mile", s%"hour", s%"year", s%"cent", s%"foot",
  s%"feet", s%"inch", s%"yard", s%"week", s%"day", s%"rad", s%"mph"]

/-- The short units without those that are also clock times (`a.m.`, `pm`, ...), constants.py:78-88. -/
def shortUnits : List Str := [
  s%"eV", s%"kg", s%"mg", s%"km", s%"cm", s%"dm", s%"ml", s%"mL", s%"ft", s%"in"]

/-- The units of one letter, constants.py:99-104. -/
def listedSingle : List Str := [
  s%"L", s%"l", s%"m", s%"g"]

end Verif

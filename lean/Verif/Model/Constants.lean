import Verif.Py.Str
/-
Model of /repo/math_evaluation/core/constants.py.
-/

namespace Verif

/-- constants.py:24-76 `UNIT_LONG_LIST` -/
def unitLong : List Str := [
  s%"立方厘米", s%"立方分米", s%"平方公里", s%"平方英尺", s%"平方英里", s%"平方英寸", s%"平方英寻",
  s%"平方英尺", s%"千公里", s%"平方米", s%"立方米", s%"千米", s%"厘米", s%"分米", s%"海里", s%"毫米",
  s%"公里", s%"英里", s%"公尺", s%"英尺", s%"元", s%"分", s%"角", s%"米", s%"度", s%"里", s%"升",
  s%"centimeter", s%"second", s%"degree", s%"dollar", s%"minute", s%"radian", s%"square",
  s%"pound", s%"month", s%"units", s%"meter", s%"edges", s%"mile", s%"hour", s%"year", s%"cent",
  s%"foot", s%"feet", s%"inch", s%"yard", s%"week", s%"day", s%"rad", s%"mph"]

/-- constants.py:78-97 `UNIT_SHORT_LIST`.  These strings are spliced into regular expressions,
so the dots of "a.m." match any character except newline (see `unitRe`). -/
def unitShort : List Str := [
  s%"eV", s%"kg", s%"mg", s%"km", s%"cm", s%"dm", s%"ml", s%"mL", s%"ft", s%"in",
  s%"a.m.", s%"p.m.", s%"A.M.", s%"P.M.", s%"am", s%"AM", s%"PM", s%"pm"]

/-- constants.py:99-104 `UNIT_SINGLE_LIST` -/
def unitSingle : List Str := [s%"L", s%"l", s%"m", s%"g"]

/-- constants.py:106 `UNIT_LIST` -/
def unitAll : List Str := unitLong ++ unitShort ++ unitSingle

end Verif

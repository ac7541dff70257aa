import Verif.Model.Float64
import Verif.Model.Nmea

/-!
# Positions of NMEA sentences in double precision

Model of `_from_nmea_format` (`/repo/hrosailing/processing/datahandler.py:360-364`) as it is calculated.
-/

namespace Verif.F64

variable {K : Type} [Field K] [LinearOrder K] [FloorRing K]

/-- `_from_nmea_format` (`/repo/hrosailing/processing/datahandler.py:360-364`) in double precision for the number `text` of
the sentence: `float` rounds it to a double, `100 * degrees` is a product of integers of python and hence exact. -/
def position (text : K) : K :=
  let value := fl text
  let degrees := Nmea.trunc (fl (value / 100))
  let minutes := fl (value - ((100 * degrees : Int) : K))
  fl ((degrees : K) + fl (minutes / 60))

end Verif.F64

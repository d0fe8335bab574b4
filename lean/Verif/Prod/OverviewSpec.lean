import Verif.Qai.Spec

/-!
# Specification of the quicklook: the legend of the documentation
-/

namespace Verif.Prod.Spec

open Verif.Qai.Spec (value)

/-- The colour of the first indicator that applies, as red, green and blue; `none`: no indicator applies. -/
def legend (q : BitVec 16) : Option (Int × Int × Int) :=
  ([ (value .off q = 1, (0, 0, 0)),        -- nodata: black
     (value .cld q = 3, (255, 0, 0)),      -- cirrus: red
     (value .cld q = 2, (255, 0, 255)),    -- opaque cloud: pink
     (value .cld q = 1, (255, 0, 255)),    -- buffered cloud: pink
     (value .shd q = 1, (0, 255, 255)),    -- cloud shadow: cyan
     (value .snw q = 1, (255, 255, 0)),    -- snow: yellow
     (value .sat q = 1, (255, 127, 39)),   -- saturated: orange
     (value .sub q = 1, (34, 177, 76))     -- subzero: greenish
   ] : List (Bool × (Int × Int × Int))).find? (·.1) |>.map (·.2)

end Verif.Prod.Spec

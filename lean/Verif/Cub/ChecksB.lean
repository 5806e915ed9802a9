import Verif.Cub.Check

/-! Kernel evaluation of the check on whole tables. -/

namespace Blitzdg.Cub

set_option maxRecDepth 100000

theorem check22 : (check 23 vals22 && inside 106 vals22) = true := by decide +kernel
theorem check23 : (check 24 vals23 && inside 118 vals23) = true := by decide +kernel
theorem check24 : (check 25 vals24 && inside 126 vals24) = true := by decide +kernel

end Blitzdg.Cub

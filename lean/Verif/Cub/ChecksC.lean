import Verif.Cub.Check

/-! Kernel evaluation of the check on whole tables. -/

namespace Blitzdg.Cub

set_option maxRecDepth 100000

theorem check25 : (check 26 vals25 && inside 138 vals25) = true := by decide +kernel
theorem check26 : (check 27 vals26 && inside 145 vals26) = true := by decide +kernel

end Blitzdg.Cub

import Verif.Cub.Check

/-! Kernel evaluation of the check on whole tables. -/

namespace Blitzdg.Cub

set_option maxRecDepth 100000

theorem check27 : (check 28 vals27 && inside 225 vals27) = true := by decide +kernel

end Blitzdg.Cub

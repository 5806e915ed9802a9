import Verif.Cub.Check

/-! Kernel evaluation of the check on whole tables. -/

namespace Blitzdg.Cub

set_option maxRecDepth 100000

theorem check0 : (check 1 vals0 && inside 1 vals0) = true := by decide +kernel
theorem check1 : (check 2 vals1 && inside 3 vals1) = true := by decide +kernel
theorem check4 : (check 5 vals4 && inside 7 vals4) = true := by decide +kernel
theorem check5 : (check 6 vals5 && inside 12 vals5) = true := by decide +kernel
theorem check6 : (check 7 vals6 && inside 15 vals6) = true := by decide +kernel
theorem check7 : (check 8 vals7 && inside 16 vals7) = true := by decide +kernel
theorem check8 : (check 9 vals8 && inside 19 vals8) = true := by decide +kernel
theorem check9 : (check 10 vals9 && inside 25 vals9) = true := by decide +kernel
theorem check10 : (check 11 vals10 && inside 28 vals10) = true := by decide +kernel
theorem check11 : (check 12 vals11 && inside 36 vals11) = true := by decide +kernel
theorem check12 : (check 13 vals12 && inside 40 vals12) = true := by decide +kernel
theorem check13 : (check 14 vals13 && inside 46 vals13) = true := by decide +kernel
theorem check14 : (check 15 vals14 && inside 54 vals14) = true := by decide +kernel
theorem check15 : (check 16 vals15 && inside 58 vals15) = true := by decide +kernel
theorem check16 : (check 17 vals16 && inside 66 vals16) = true := by decide +kernel
theorem check17 : (check 18 vals17 && inside 73 vals17) = true := by decide +kernel
theorem check18 : (check 19 vals18 && inside 82 vals18) = true := by decide +kernel
theorem check19 : (check 20 vals19 && inside 85 vals19) = true := by decide +kernel
theorem check20 : (check 21 vals20 && inside 93 vals20) = true := by decide +kernel
theorem check21 : (check 22 vals21 && inside 100 vals21) = true := by decide +kernel

end Blitzdg.Cub

import Verif.Approx.ModelPow

/-! # A large value of `powf` from the second attempt -/

namespace Verif.Approx

theorem powf_top : powf 0x40000000 0x42FE0000 = some 0x7EB58298 := by decide +kernel

end Verif.Approx

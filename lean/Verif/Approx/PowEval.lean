import Verif.Approx.ModelPow

/-! # A value of `powf` from the second attempt -/

namespace Verif.Approx

theorem powf_square : powf 0x45800800 0x40000000 = some 0x4B472ADE := by decide +kernel

end Verif.Approx

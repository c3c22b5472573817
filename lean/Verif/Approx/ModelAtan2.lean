import Verif.Approx.ModelTrig
import Verif.Math.Model

/-!
# Model of `atan2f`

`atan2f` divides the smaller argument by the larger one in double precision and takes the arctangent by the kernel of `atanf`.  When the
result is close to the midpoint of two `float`s, it evaluates the arctangent again on 128-bit significands and compares with the midpoint.

The 128-bit numbers `dint_t` are modelled with an unbounded exponent instead of `int64_t`.  `dint_add_ex_` also returns discarded bits, which
`atan2f` does not use; they are left out.
-/

namespace Verif.Approx
open Verif.Float

/-- `dint_t`, src/math/double/kernel/dint.h:26-30: the number `(-1)^sgn * m / 2^127 * 2^ex` -/
structure Dint where
  sgn : Bool
  ex : Int
  m : Nat
  deriving DecidableEq

namespace Dint

/-- `dint_clz_`, src/math/double/kernel/dint.h:34-44 -/
def clz (x : Nat) : Nat := if x = 0 then 128 else 127 - Nat.log2 x

/-- `dint_cmp_magnitude_`, src/math/double/kernel/dint.h:47-54 -/
def cmp (a b : Dint) : Int := if a.ex ≠ b.ex then (if a.ex < b.ex then -1 else 1) else if a.m ≠ b.m then (if a.m < b.m then -1 else 1) else 0

/-- The same number with the other sign: `{ !a.sgn, a.ex, a.m }` -/
def opp (a : Dint) : Dint := ⟨!a.sgn, a.ex, a.m⟩

/-- The smaller significand, shifted to the exponent of the larger one: src/math/double/kernel/dint.h:86-101.  The bit is added at the
lowest place and not at the place of the rounding. -/
def align (small : Nat) (sh : Int) : Nat :=
  if 0 < sh then
    if sh ≤ 128 then
      let rounded := (small + (small / 2 ^ (sh - 1).toNat) % 2) % 2 ^ 128
      if sh < 128 then (if rounded < small then 2 ^ (128 - sh).toNat else rounded / 2 ^ sh.toNat) else 0
    else 0
  else small

/-- Shift to set bit 127: src/math/double/kernel/dint.h:121-125 -/
def normal (sgn : Bool) (ex : Int) (c : Nat) : Dint := ⟨sgn, ex - clz c, c * 2 ^ clz c % 2 ^ 128⟩

/-- Sum of significands with a carry: src/math/double/kernel/dint.h:110-117 -/
def carry (sgn : Bool) (ex : Int) (big small : Nat) : Dint :=
  let c := (big + small) % 2 ^ 128
  if c < big then normal sgn (ex + 1) (2 ^ 127 ||| (c + c % 2) % 2 ^ 128 / 2) else normal sgn ex c

/-- src/math/double/kernel/dint.h:79-125: sum of two numbers, the first of them larger in magnitude -/
def addBig (a b : Dint) : Dint :=
  let small := align b.m (a.ex - b.ex)
  if a.sgn ≠ b.sgn then normal a.sgn a.ex ((a.m + 2 ^ 128 - small) % 2 ^ 128) else carry a.sgn a.ex a.m small

/-- `dint_add_`, src/math/double/kernel/dint.h:57-126 -/
def add (a b : Dint) : Dint :=
  if a.m = 0 then b
  else if b.m = 0 then a
  else if cmp a b = 0 then (if a.sgn ≠ b.sgn then ⟨false, 0, 0⟩ else ⟨a.sgn, a.ex + 1, a.m⟩)
  else if cmp a b < 0 then addBig b a
  else addBig a b

/-- `dint_add_ex_`, src/math/double/kernel/dint.h:225-278 -/
def addEx (a b : Dint) : Dint :=
  if b.m = 0 then a
  else if a.m = 0 then b
  else carry a.sgn a.ex a.m (align b.m (a.ex - b.ex))

/-- `dint_mul_`, src/math/double/kernel/dint.h:129-157 -/
def mul (a b : Dint) : Dint :=
  let ah := a.m / 2 ^ 64
  let al := a.m % 2 ^ 64
  let bh := b.m / 2 ^ 64
  let bl := b.m % 2 ^ 64
  let m1 := ah * bl
  let m := (m1 + al * bh) % 2 ^ 128
  let t := ((ah * bh + if m < m1 then 2 ^ 64 else 0) + m / 2 ^ 64) % 2 ^ 128
  if t / 2 ^ 127 = 0 then ⟨a.sgn != b.sgn, a.ex + b.ex, (t * 2 % 2 ^ 128 + m % 2 ^ 64 / 2 ^ 63) % 2 ^ 128⟩
  else ⟨a.sgn != b.sgn, a.ex + b.ex + 1, (t + m % 2 ^ 64 / 2 ^ 63) % 2 ^ 128⟩

/-- `dint_mul_int_`, src/math/double/kernel/dint.h:160-190, for an index `b ≥ 0` -/
def mulInt (a : Dint) (b : Nat) : Dint :=
  if b = 0 then ⟨false, 0, 0⟩
  else
    let t := a.m / 2 ^ 64 * b
    let sh := if t / 2 ^ 64 = 0 then 64 else 63 - Nat.log2 (t / 2 ^ 64)
    let t := t * 2 ^ sh % 2 ^ 128
    let l := (a.m % 2 ^ 64 * b) * 2 ^ (sh - 1) % 2 ^ 128 / 2 ^ 63
    let sum := (l + t) % 2 ^ 128
    if sum < l then ⟨a.sgn, a.ex + 64 - (sh - 1), 2 ^ 127 ||| (sum + sum % 2) % 2 ^ 128 / 2⟩ else ⟨a.sgn, a.ex + 64 - sh, sum⟩

/-- `dint_from_f64_`, src/math/double/kernel/dint.h:194-216.  The bias of a subnormal number applies after scaling by `0x1p52`.
`hi` always has its bit 52, so that `__builtin_clzll(hi)` is 11. -/
def ofDouble (b : Nat) : Dint :=
  let bias : Int := if b64.lt (b64.abs b) 0x0010000000000000 then 52 else 0
  let b := if b64.lt (b64.abs b) 0x0010000000000000 then b64.mul b 0x4330000000000000 else b
  ⟨b64.lt b 0, (b / 2 ^ 52 % 2 ^ 11 : Nat) - 0x3FF - bias, (b % 2 ^ 52 + 2 ^ 52) * 2 ^ 11 * 2 ^ 64⟩

/-- `dint_to_f64_`, src/math/double/kernel/dint.h:312-337 -/
def toDouble (a : Dint) : Nat :=
  let hi := a.m / 2 ^ 64 % 2 ^ 64
  let r := hi / 2 ^ 11 ||| 0x3FF0000000000000
  let rd := if hi / 2 ^ 10 % 2 = 1 then b64.add 0 0x3CA0000000000000 else 0
  let rd := if hi % 2 ^ 10 ≠ 0 ∨ a.m % 2 ^ 64 ≠ 0 then b64.add rd 0x3C90000000000000 else rd
  let r := if a.sgn then b64.sub (b64.opp r) rd else b64.add r rd
  b64.mul r (((a.ex + 1023) % 2 ^ 11).toNat * 2 ^ 52)

end Dint

/-- `atantab_tan_[i][0]`, src/math/double/kernel/atantab.h:23-152: tan(i*pi/256) -/
def atanTan : List Nat := [
  0x0, 0x3F89224E047E368E, 0x3F992346247A91F0, 0x3FA2DBAAE9A05DB0, 0x3FA927278A3B1162, 0x3FAF7495EA3F3783,
  0x3FB2E239CCFF3831, 0x3FB60B9F7597FDEC, 0x3FB936BB8C5B2DA2, 0x3FBC63CE377FC802, 0x3FBF93183A8DB9E9, 0x3FC1626D85A91E70,
  0x3FC2FCAC73A60640, 0x3FC4986A74CF4E57, 0x3FC635C990CE0D36, 0x3FC7D4EC54FB5968, 0x3FC975F5E0553158, 0x3FCB1909EFD8B762,
  0x3FCCBE4CEB4B4CF2, 0x3FCE65E3F27C9F2A, 0x3FD007FA758626AE, 0x3FD0DE53475F3B3C, 0x3FD1B6103D3597E9, 0x3FD28F459ECAD74D,
  0x3FD36A08355C63DC, 0x3FD4466D542BAC92, 0x3FD5248AE1701B17, 0x3FD604775FBB27DF, 0x3FD6E649F7D78649, 0x3FD7CA1A832D0F84,
  0x3FD8B00196B3D022, 0x3FD998188E816BF0, 0x3FDA827999FCEF32, 0x3FDB6F3FC8C61E5B, 0x3FDC5E87185E67B6, 0x3FDD506C82A2C800,
  0x3FDE450E0D273E7A, 0x3FDF3C8AD985D9EE, 0x3FE01B819B5A7CF7, 0x3FE09A4C59BD0D4D, 0x3FE11AB7190834EC, 0x3FE19CD3FE8E405D,
  0x3FE220B5EF047825, 0x3FE2A6709A74F289, 0x3FE32E1889047FFD, 0x3FE3B7C3289ED6F3, 0x3FE44386DB9CE5DB, 0x3FE4D17B087B265D,
  0x3FE561B82AB7F990, 0x3FE5F457E4F4812E, 0x3FE6897514751DB6, 0x3FE7212BE621BE6D, 0x3FE7BB99ED2990CF, 0x3FE858DE3B716571,
  0x3FE8F9197BF85EEB, 0x3FE99C6E0F634394, 0x3FEA43002AE42850, 0x3FEAECF5F9BA35A6, 0x3FEB9A77C18C1AF2, 0x3FEC4BB009E77983,
  0x3FED00CBC7384D2E, 0x3FEDB9FA89953FCF, 0x3FEE776EAFC91706, 0x3FEF395D9F0E3C92, 0x3FF0000000000000, 0x3FF065C900AAF2D8,
  0x3FF0CE29D0883C99, 0x3FF139447E6A86EE, 0x3FF1A73D55278C4B, 0x3FF2183B0C4573FF, 0x3FF28C66FDAF8F09, 0x3FF303ED61109E20,
  0x3FF37EFD8D87607E, 0x3FF3FDCA42847507, 0x3FF48089F8BF42CC, 0x3FF507773C537EAD, 0x3FF592D11142FA55, 0x3FF622DB63C8ECC2,
  0x3FF6B7DF86265200, 0x3FF7522CBDD428A8, 0x3FF7F218E25A7461, 0x3FF89801106CC709, 0x3FF9444A7462122A, 0x3FF9F7632FA9E871,
  0x3FFAB1C35D8A74EA, 0x3FFB73EE3C3EF16A, 0x3FFC3E738086BC0F, 0x3FFD11F0DAE40609, 0x3FFDEF13B73C1406, 0x3FFED69B4153A45D,
  0x3FFFC95ABAD6CF4A, 0x4000641E192CEAB3, 0x4000EA21D716FBF7, 0x40017749711A6679, 0x40020C36C6A7F38E, 0x4002A99F50FD4F4F,
  0x4003504F333F9DE6, 0x4004012CE2586A17, 0x4004BD3D87FE0650, 0x400585AA4E1530FA, 0x40065BC6CC825147, 0x40074118E4B6A7C8,
  0x400837626D70FDB8, 0x400940AD30ABC792, 0x400A5F59E90600DD, 0x400B9633283B6D14, 0x400CE885653127E7, 0x400E5A3DE972A377,
  0x400FF01305ECD8DC, 0x4010D7DC7CFF4C9E, 0x4011D0143E71565F, 0x4012E4FF1626B949, 0x40141BFEE2424771, 0x40157BE4EAA5E11B,
  0x40170D751908C1B1, 0x4018DC25C117782B, 0x401AF73F4CA3310F, 0x401D7398D15E70DB, 0x4020372FB36B87E2, 0x402208DBDAE055EF,
  0x40244E6C595AFDCC, 0x4027398C57F3F1AD, 0x402B1D03C03D2F7F, 0x403046E9FE60A77E, 0x40345AFFED201B55, 0x403B267195B1FFAE,
  0x40445E2455E4AAA7, 0x40545EED6854CE99]

/-- `atantab_tan_dint_`, src/math/double/kernel/atantab.h:292-421 -/
def atanTanDint : List Dint := [
  ⟨false, 0, 0x0⟩, ⟨false, -7, 0xC9127023F1B46E5C2563F7EDF497B1F7⟩,
  ⟨false, -6, 0xC91A3123D48F7FDD894DD4AE39D3E261⟩, ⟨false, -5, 0x96DD574D02ED7D91581B66E22970A1B6⟩,
  ⟨false, -5, 0xC9393C51D88B101ADA13CEEBAB9C9B0B⟩, ⟨false, -5, 0xFBA4AF51F9BC15F02AE5CAB20A3D894F⟩,
  ⟨false, -4, 0x9711CE67F9C18B0F459611F025736C3C⟩, ⟨false, -4, 0xB05CFBACBFEF60E915C7608F8032B6CC⟩,
  ⟨false, -4, 0xC9B5DC62D96D130FA0A9ED13AF420D72⟩, ⟨false, -4, 0xE31E71BBFE400D780AA4960ACD40D869⟩,
  ⟨false, -4, 0xFC98C1D46DCF46EDDF92D53CFECEA077⟩, ⟨false, -3, 0x8B136C2D48F37EFF840372AC42A2B838⟩,
  ⟨false, -3, 0x97E5639D3032012CFB5A746F62C746C6⟩, ⟨false, -3, 0xA4C353A67A72BB3565B9DAEF2E14FA6B⟩,
  ⟨false, -3, 0xB1AE4C867069AE621454A6774956AB91⟩, ⟨false, -3, 0xBEA762A7DACB40FDC9247908B3A21A7F⟩,
  ⟨false, -3, 0xCBAFAF02A98AC03DEBA6CE88328C87ED⟩, ⟨false, -3, 0xD8C84F7EC5BB118448DFDB1CB07E88DC⟩,
  ⟨false, -3, 0xE5F2675A5A679294B7C658C49E70EA4E⟩, ⟨false, -3, 0xF32F1F93E4F953EC6C093B1B01F3BC38⟩,
  ⟨false, -2, 0x803FD3AC3135715A6D6C3C8B6A7253DF⟩, ⟨false, -2, 0x86F29A3AF9D9E17B35CC20FC4AFC4157⟩,
  ⟨false, -2, 0x8DB081E9ACBF49CBDA4F63658A070231⟩, ⟨false, -2, 0x947A2CF656BA682066C06DC643D2A750⟩,
  ⟨false, -2, 0x9B5041AAE31EDE28FB2E4024918600F5⟩, ⟨false, -2, 0xA2336AA15D648DF6030843D94425E016⟩,
  ⟨false, -2, 0xA924570B80D8BB7D2EC70F0A38263381⟩, ⟨false, -2, 0xB023BAFDD93EF9AC77AF460D6099B13A⟩,
  ⟨false, -2, 0xB7324FBEBC324978E945DC3913C4F897⟩, ⟨false, -2, 0xBE50D419687C1C2363A9BD2A8E83E818⟩,
  ⟨false, -2, 0xC5800CB59E810E8CD859B1EDD62E7F20⟩, ⟨false, -2, 0xCCC0C4740B5F827B8303D1F35314DA1C⟩,
  ⟨false, -2, 0xD413CCCFE779921165F626CDD52AFA7C⟩, ⟨false, -2, 0xDB79FE4630F2D65E59539F07E109F421⟩,
  ⟨false, -2, 0xE2F438C2F33DB07FD5FE853BB0BCCBE6⟩, ⟨false, -2, 0xEA836415164001E19808BA6AC139F4E9⟩,
  ⟨false, -2, 0xF228706939F3D282A45E2BCA78A6DCAA⟩, ⟨false, -2, 0xF9E456CC2ECF7055A62369312EB0D047⟩,
  ⟨false, -1, 0x80DC0CDAD3E7BA17F9DD77D0F2EA61C4⟩, ⟨false, -1, 0x84D262CDE86A67D5E6B5B02A17123215⟩,
  ⟨false, -1, 0x88D5B8C841A75C3536865C3394652BDF⟩, ⟨false, -1, 0x8CE69FF47202E563703EB3551F358DE9⟩,
  ⟨false, -1, 0x9105AF7823C1286BB5BEE4C3CCC8E72D⟩, ⟨false, -1, 0x953384D3A794496E6D4A65123B1192A5⟩,
  ⟨false, -1, 0x9970C44823FFE5DE977BC32B6105FAE6⟩, ⟨false, -1, 0x9DBE1944F6B79476A06C706830413369⟩,
  ⟨false, -1, 0xA21C36DCE72ED4B057506235F1432980⟩, ⟨false, -1, 0xA68BD843D932E677A48575D98057E4F9⟩,
  ⟨false, -1, 0xAB0DC155BFCC82F518A42E56CEA7698C⟩, ⟨false, -1, 0xAFA2BF27A40973EE3FB6B21857366B19⟩,
  ⟨false, -1, 0xB44BA8A3A8EDB1439BC2D43EBFC129CB⟩, ⟨false, -1, 0xB9095F310DF36B5AA54C29A1F1B3D0D9⟩,
  ⟨false, -1, 0xBDDCCF694C8674AB158E3762CD448CB1⟩, ⟨false, -1, 0xC2C6F1DB8B2B8B8D04CCDADB18E50927⟩,
  ⟨false, -1, 0xC7C8CBDFC2F75687408E56AD8C83EF07⟩, ⟨false, -1, 0xCCE3707B1A1CA234ED72207F7F3B2269⟩,
  ⟨false, -1, 0xD218015721427E59247F018690256A38⟩, ⟨false, -1, 0xD767AFCDD1AD302B6BF3295854C5FC9D⟩,
  ⟨false, -1, 0xDCD3BE0C60D7916FC7E578D57AABB42C⟩, ⟨false, -1, 0xE25D804F3BCC17B4333378367AE79E94⟩,
  ⟨false, -1, 0xE8065E39C269718DCAD85E60FBE6FDDF⟩, ⟨false, -1, 0xEDCFD44CA9FE780DE9D03F33E55B6FB6⟩,
  ⟨false, -1, 0xF3BB757E48B83322BD576FE41953EE3D⟩, ⟨false, -1, 0xF9CAECF871E48FAE0BABD5DD57A02947⟩,
  ⟨false, 0, 0x80000000000000000000000000000000⟩, ⟨false, 0, 0x832E48055796C3D5F22059941D9EB3B7⟩,
  ⟨false, 0, 0x86714E8441E4CA930C4CF4E0C763C0CF⟩, ⟨false, 0, 0x89CA23F354376D68DD9AE1D7F75C2562⟩,
  ⟨false, 0, 0x8D39EAA93C625B28D9816CD2F3DBC09E⟩, ⟨false, 0, 0x90C1D8622B9FF4B7D58C16C2DD4DA359⟩,
  ⟨false, 0, 0x946337ED7C78490322C959869607ABC7⟩, ⟨false, 0, 0x981F6B0884F103AE3B0EBE49FCB8A933⟩,
  ⟨false, 0, 0x9BF7EC6C3B03EF3C0D29346554B5D717⟩, ⟨false, 0, 0x9FEE521423A835BFA4AAA670E739CBC8⟩,
  ⟨false, 0, 0xA4044FC5FA1663F0D6FD499C7B7B2173⟩, ⟨false, 0, 0xA83BB9E29BF56AAC6F8E1F20517605AC⟩,
  ⟨false, 0, 0xAC96888A17D2A96A085E3BC3AF6546D3⟩, ⟨false, 0, 0xB116DB1E4766136BEA099C5614ED022D⟩,
  ⟨false, 0, 0xB5BEFC31328FFD5E4284583BE9C31131⟩, ⟨false, 0, 0xBA9165EEA145413D8C08320316B2751C⟩,
  ⟨false, 0, 0xBF90C712D3A30A833F4D2A9251E93204⟩, ⟨false, 0, 0xC4C0088366384B7BBD41FD8A988A586F⟩,
  ⟨false, 0, 0xCA2253A3109153997DD7470034F50315⟩, ⟨false, 0, 0xCFBB197D4F4384534A13B0050B0AFB79⟩,
  ⟨false, 0, 0xD58E1AEC53A74F2482443DC944E82952⟩, ⟨false, 0, 0xDB9F71E1F78B4D22EC64174CEA51B080⟩,
  ⟨false, 0, 0xE1F39C0435E07A14725B358D476A6E7D⟩, ⟨false, 0, 0xE88F86D7203047620F6FBBE080DDF075⟩,
  ⟨false, 0, 0xEF789DB9E0A0310FB3E75C7098D9FF7B⟩, ⟨false, 0, 0xF6B4DA0A9D22E52E8F1DAC53CB4A42D5⟩,
  ⟨false, 0, 0xFE4AD5D6B67A51B7127CF34B46B9BD93⟩, ⟨false, 1, 0x8320F0C96755994E550B987CEC18118C⟩,
  ⟨false, 1, 0x87510EB8B7DFB97CE6CB463C972790B1⟩, ⟨false, 1, 0x8BBA4B88D333C8F416F3D3B8157D18B3⟩,
  ⟨false, 1, 0x9061B6353F9C6ED6E02BFFD7F40B186C⟩, ⟨false, 1, 0x954CFA87EA7A745D29D62BD308CB35A2⟩,
  ⟨false, 1, 0x9A827999FCEF32422CBEC4D9BAA55F50⟩, ⟨false, 1, 0xA0096712C350BAE27CAD6F1F31C65C12⟩,
  ⟨false, 1, 0xA5E9EC3FF0327CFA748CA310AEA19082⟩, ⟨false, 1, 0xAC2D5270A987CC878F3E912BE7D828CA⟩,
  ⟨false, 1, 0xB2DE3664128A386B2A51EFEC772E762A⟩, ⟨false, 1, 0xBA08C725B53E432665F3325E278E579A⟩,
  ⟨false, 1, 0xC1BB136B87EDC0D9AE371DA4F66A0D43⟩, ⟨false, 1, 0xCA0569855E3C8F1D02E560B71247CD33⟩,
  ⟨false, 1, 0xD2FACF483006E6485EB2F296E419F223⟩, ⟨false, 1, 0xDCB19941DB68A09D8AAF54B8FD6F57FF⟩,
  ⟨false, 1, 0xE7442B29893F385DFD8E2A35F6290998⟩, ⟨false, 1, 0xF2D1EF4B951BB643D914B9ACD0C9F6A8⟩,
  ⟨false, 1, 0xFF80982F66C6DF3B0194E402062849F7⟩, ⟨false, 2, 0x86BEE3E7FA64F37AEC9EC37E7B6C7CAB⟩,
  ⟨false, 2, 0x8E80A1F38AB2F6118C897902BC1B1804⟩, ⟨false, 2, 0x9727F8B135CA47630272FEB0D98F0CB3⟩,
  ⟨false, 2, 0xA0DFF712123B88441C1BFB4DFC39C38F⟩, ⟨false, 2, 0xABDF27552F08D70262D5C6D8F43EA156⟩,
  ⟨false, 2, 0xB86BA8C8460D85DE3AF4952031792B87⟩, ⟨false, 2, 0xC6E12E08BBC156B35964EC7C6FDAB517⟩,
  ⟨false, 2, 0xD7B9FA6519887651C68DC63A5F302C59⟩, ⟨false, 2, 0xEB9CC68AF386D455F9AE45CB583E1F5A⟩,
  ⟨false, 3, 0x81B97D9B5C3F0E2B5C8997AB7D11C23D⟩, ⟨false, 3, 0x9046DED702AF762C7C9EC22ED1B599B5⟩,
  ⟨false, 3, 0xA27362CAD7EE626A3B5D4F28239847AA⟩, ⟨false, 3, 0xB9CC62BF9F8D64A00D2023E1507990F4⟩,
  ⟨false, 3, 0xD8E81E01E97BF967E518F25E3F7B1332⟩, ⟨false, 4, 0x82374FF3053BEC36549F0A90D616E101⟩,
  ⟨false, 4, 0xA2D7FF6900DAA7F248CA590F996E15F7⟩, ⟨false, 4, 0xD9338CAD8FFD7026ADC50011B08FCB82⟩,
  ⟨false, 5, 0xA2F122AF255539E2447B82CA2F355074⟩, ⟨false, 6, 0xA2F76B42A674C785B75CADE9EEA4F531⟩]

/-- `atantab_step_dint_`, src/math/double/kernel/atantab.h:423 -/
def atanStep : Dint := ⟨false, -7, 0xC90FDAA22168C234C4C6628B80DC1CD1⟩
/-- `atantab_pi_2_dint_` and `atan2f_pi2_dint_`, src/math/double/kernel/atantab.h:424, src/math/float/atan2f.h:16-17 -/
def pi2Dint : Dint := ⟨false, 0, 0xC90FDAA22168C234C4C6628B80DC1CD1⟩
/-- `atan2f_pi_dint_`, src/math/float/atan2f.h:14-15 -/
def piDint : Dint := ⟨false, 1, 0xC90FDAA22168C234C4C6628B80DC1CD1⟩
/-- `atantab_one_dint_`, src/math/double/kernel/atantab.h:425 -/
def oneDint : Dint := ⟨false, 0, 0x80000000000000000000000000000000⟩

/-- `atantab_p_dint_`, src/math/double/kernel/atantab.h:429-438 -/
def atanP : List Dint := [
  ⟨true, -2, 0xAAAAAAAAAAAAAAAAAAAAAAAAAAAAAAAB⟩, ⟨false, -3, 0xCCCCCCCCCCCCCCCCCCCCCCCCCCCCCCCD⟩,
  ⟨true, -3, 0x92492492492492492492492492492492⟩, ⟨false, -4, 0xE38E38E38E38E38E38E38E38E38E38E4⟩,
  ⟨true, -4, 0xBA2E8BA2E8BA2E8BA2E8BA2E8BA2E8BA⟩, ⟨false, -4, 0x9D89D89D89D89D89D89D89D89D89D89E⟩,
  ⟨true, -4, 0x88888888888888888888888888888889⟩, ⟨false, -5, 0xF0F0F0F0F0F0F0F0F0F0F0F0F0F0F0F1⟩]

/-- The loop of `atantab_index_`, src/math/double/kernel/atantab.h:447-453 -/
def atanSearch (x : Nat) : Nat → Nat → Nat → Nat
  | 0, lo, _ => lo
  | n + 1, lo, hi =>
    if lo < hi then
      let mid := (lo + hi + 1) / 2
      if b64.le (atanTan.getD mid 0) x then atanSearch x n mid hi else atanSearch x n lo (mid - 1)
    else lo

/-- `atantab_index_`, src/math/double/kernel/atantab.h:443-455.  Each turn at least halves the interval of length 127, so there are at most
eight turns. -/
def atanIndex (x : Nat) : Nat := atanSearch x 8 0 127

/-- `atantab_dint_from_dd_`, src/math/double/kernel/atantab.h:513-520 -/
def dintOfDd (hi lo : Nat) : Dint := if b64.eq lo 0 then Dint.ofDouble hi else (Dint.ofDouble hi).add (Dint.ofDouble lo)

/-- One turn of the loop of `atantab_recip_dint_`, src/math/double/kernel/atantab.h:532-535 -/
def recipStep (a r : Dint) : Dint := r.mul ((oneDint.add oneDint).add (a.mul r).opp)

/-- `atantab_recip_dint_`, src/math/double/kernel/atantab.h:524-538 -/
def recipDint (a : Dint) : Dint := recipStep a (recipStep a (Dint.ofDouble (Arith.fdiv b64 one a.toDouble)))

/-- The polynomial of `atantab_atan_small_dint_`, src/math/double/kernel/atantab.h:544-549 -/
def dintPoly (h2 : Dint) : List Dint → Dint
  | [] => ⟨false, 0, 0⟩
  | [c] => c
  | c :: cs => c.add (h2.mul (dintPoly h2 cs))

/-- `atantab_atan_small_dint_`, src/math/double/kernel/atantab.h:541-554 -/
def atanSmall (h : Dint) : Dint :=
  let h2 := h.mul h
  h.add ((h.mul h2).mul (dintPoly h2 atanP))

/-- `atantab_atan_dint_xd_ex_`, src/math/double/kernel/atantab.h:562-600 -/
def atanDint (xd : Dint) (x : Nat) : Dint :=
  if b64.lt (atanTan.getD 127 0) x then pi2Dint.add (atanSmall (recipDint xd)).opp
  else
    let i := atanIndex x
    let t := atanTanDint.getD i oneDint
    let angle := atanStep.mulInt i
    let h := (xd.add t.opp).mul (recipDint (oneDint.add (xd.mul t)))
    let a := atanSmall h
    if i = 0 ∨ angle.ex = a.ex then angle.add a else angle.addEx a

/-- `atantab_atan_dd_dint_`, src/math/double/kernel/atantab.h:623-627 -/
def atanDd (hi lo : Nat) : Dint := atanDint (dintOfDd hi lo) hi

/-- `atan2f_pi_lo_`, src/math/float/atan2f.h:9; the high words of the constants are `pi1` and `pi2` -/
def pi1lo : Nat := 0x3CA1A62633145C07
/-- `atan2f_pi2_lo_`, src/math/float/atan2f.h:11 -/
def pi2low : Nat := 0x3C91A62633145C07
/-- 0x1.921fb54442d18p-1, src/math/float/atan2f.h:184 -/
def pi4 : Nat := 0x3FE921FB54442D18
/-- `HUGE_VALF` and `-HUGE_VALF` -/
def infUp : Nat := 0x7F800000
def infDown : Nat := 0xFF800000

/-- `(hi - (double)f) + lo` -/
def residual (hi lo : Nat) : Nat := b64.add (b64.sub hi (wide (narrow hi))) lo

/-- `dd_to_float_`, src/math/float/atan2f.h:25-42 -/
def ddToFloat (hi lo : Nat) : Option Nat :=
  let f := narrow hi
  let d := residual hi lo
  if b64.eq d 0 then some f
  else if b64.lt 0 d then
    (Math.nextafter Math.flt f infUp).map fun up =>
      if b64.lt (b64.mul (b64.sub (wide up) (wide f)) half) d then up else f
  else
    (Math.nextafter Math.flt f infDown).map fun dn =>
      if b64.lt (b64.mul (b64.sub (wide f) (wide dn)) half) (b64.opp d) then dn else f

/-- `atan2f_exact_quot_`, src/math/float/atan2f.h:60-71 -/
def exactQuot (num den : Nat) : Nat × Nat :=
  let q := Arith.fdiv b64 num den
  let c := b64.mul 0x41A0000002000000 q
  let qh := b64.sub c (b64.sub c q)
  let ql := b64.sub q qh
  let r := b64.sub (b64.sub num (b64.mul qh den)) (b64.mul ql den)
  (q, Arith.fdiv b64 r den)

/-- `atan2f_gap_`, src/math/float/atan2f.h:75-80 -/
def atanGap (f d : Nat) : Option Nat :=
  (Math.nextafter Math.flt f (if b64.lt 0 d then infUp else infDown)).map fun adj =>
    b64.abs (b64.sub (b64.abs d) (b64.mul (b64.abs (b64.sub (wide adj) (wide f))) half))

/-- The magnitude of the result of `atan2f_accurate_`, src/math/float/atan2f.h:95-115: the arctangent alone without `base`, and otherwise
its difference from `base` -/
def atanMagnitude (q : Nat × Nat) (negative : Bool) (base : Option Dint) : Dint :=
  let a := atanDd q.1 q.2
  match base with
  | none => a
  | some b => b.add (if negative then a.opp else a).opp

/-- `atan2f_accurate_`, src/math/float/atan2f.h:91-150 -/
def atanAccurate (q : Nat × Nat) (negative : Bool) (base : Option Dint) (hi d : Nat) : Option Nat :=
  let r := atanMagnitude q negative base
  let f := b32.abs (narrow hi)
  (Math.nextafter Math.flt f (if b64.lt 0 d = b64.lt 0 hi then infUp else 0)).map fun other =>
    let c := r.cmp (Dint.ofDouble (b64.mul half (b64.add (wide f) (wide other))))
    let larger := if b32.lt f other then other else f
    let smaller := if b32.lt other f then other else f
    b32.copysign (if 0 < c then larger else if c < 0 then smaller else if base = none then smaller else if f % 2 = 1 then other else f) (narrow hi)

/-- The last part of the branches with `pi/2` and `pi`, src/math/float/atan2f.h:158-177 and 193-211: `k` is to be subtracted from
`chi + clo`. -/
def atanFrom (chi clo : Nat) (base : Dint) (k num den : Nat) (negative : Bool) : Option Nat :=
  let hi := b64.sub chi k
  let lo := b64.add (b64.sub (b64.sub chi hi) k) clo
  let d := residual hi lo
  if b64.abs k < b64.inf ∧ ¬ b64.eq k 0 then
    (atanGap (narrow hi) d).bind fun g =>
      if b64.lt g 0x3CC0000000000000 then atanAccurate (exactQuot num den) negative (some base) hi d else ddToFloat hi lo
  else ddToFloat hi lo

/-- The branch without a constant, src/math/float/atan2f.h:214-225 -/
def atanPlain (k num den : Nat) (negative : Bool) : Option Nat :=
  let f := narrow k
  let d := b64.sub k (wide f)
  if b64.abs k < b64.inf ∧ ¬ b32.eq f 0 then
    (atanGap f d).bind fun g =>
      if b64.lt g 0x3CC0000000000000 then atanAccurate (exactQuot num den) negative none k d else some f
  else some f

/-- `acute`, src/math/float/atan2f.h:181-187 -/
def acute (y x : Nat) : Nat :=
  let a := b64.abs x
  let b := b64.abs y
  if b64.eq a b then (if ¬ b64.eq b 0 then b64.copysign pi4 y else y) else kernelAtan (Arith.fdiv b64 y a)

/-- `atan2f_`, src/math/float/atan2f.h:153-226, on arguments of type `double` -/
def atan2Wide (y x : Nat) : Option Nat :=
  let a := b64.abs x
  let b := b64.abs y
  if b64.lt a b then atanFrom (b64.copysign pi2 y) (b64.copysign pi2low y) pi2Dint (kernelAtan (Arith.fdiv b64 x y)) a b (b64.lt x 0)
  else if b64.neg x then atanFrom (b64.copysign pi1 y) (b64.copysign pi1lo y) piDint (acute y x) b a (b64.lt y 0)
  else atanPlain (acute y x) b a (b64.lt y 0)

/-- `atan2f`, src/math/float/atan2f.c:3-6; `cargf`, src/math/float/cargf.c:4-7, calls the same function with the imaginary and the real
part. -/
def atan2f (y x : Nat) : Option Nat := atan2Wide (wide y) (wide x)

end Verif.Approx

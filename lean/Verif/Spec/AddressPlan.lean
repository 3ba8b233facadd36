import Verif.Model.AddressPlan
/-!
# The IPv4 addresses of the example programs (C116)
-/

namespace Verif
namespace Spec

/-- The device has the address. -/
def Owns (P : AddrPlan) (d : DevId) (ip : Ip) : Prop := ∃ n l, (d, l) ∈ P.ifaces n ∧ ip ∈ l

/-- `a.b.c.d` as a number. -/
def dotted (a b c d : Nat) : Ip := a * 256 ^ 3 + b * 256 ^ 2 + c * 256 + d

end Spec
end Verif

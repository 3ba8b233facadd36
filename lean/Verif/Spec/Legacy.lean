import Verif.Model.Legacy
import Verif.Spec.AddressPlan
/-!
# What addresses are good for
-/

namespace Verif.Spec

/-- Every address belongs to one device and is one of a host: not 0.0.0.0, no group (224.0.0.0 and above), not the broadcast address. -/
def GoodAddresses (ips : List Ip) : Prop := ips.Nodup ∧ ∀ ip ∈ ips, 0 < ip ∧ ip < dotted 224 0 0 0

end Verif.Spec

import Verif.Model.Helper
/-!
# The addresses that `LeoHelper` assigns

`LeoHelper::Install` (helper/leo-helper.cc:59-63) makes an `Ipv4AddressHelper` and lets it assign addresses to its three networks without having called `SetBase`.
`Ipv4AddressHelper` and `Ipv4AddressGenerator` are ns-3's and not in /repo; the members and functions used are modelled here from memory.  The mask of such a helper is 0.0.0.0.
-/

namespace Verif

/-- `m_network`, `m_shift`, `m_address`, `m_max` of `Ipv4AddressHelper` (ns-3 internet), each a `uint32_t`. -/
structure AddrHelper where
  network : Nat
  shift : Nat
  address : Nat
  max : Nat
  deriving DecidableEq, Repr

/-- `Ipv4AddressHelper ()` (ns-3 internet): a helper without a base has all bits set in each of these members (assumed; ns-3's source was not at hand). -/
def AddrHelper.create : AddrHelper := ⟨4294967295, 4294967295, 4294967295, 4294967295⟩

/-- `n << s` of `uint32_t`: undefined for 32 and more bits; `ub` is what the compiled program has then. -/
def shl32 (ub n s : Nat) : Nat := if s < 32 then n * 2 ^ s % 4294967296 else ub % 4294967296

/-- `Ipv4AddressHelper::NewAddress` and `Ipv4AddressGenerator::AddAllocated` (ns-3 internet) for `n` devices, one after the other; `given` are the addresses allocated in this program.
`none`: the assertion that there is an address left, the abort for the address 0.0.0.0, or the fatal error for an address that was given before. -/
def AddrHelper.assign (ub : Nat) : Nat → AddrHelper → List Ip → Option (List Ip × AddrHelper × List Ip)
  | 0, h, given => some ([], h, given)
  | n + 1, h, given =>
    if h.max < h.address then none
    else
      let addr := shl32 ub h.network h.shift ||| h.address
      if addr = 0 then none
      else if addr ∈ given then none
      else (AddrHelper.assign ub n { h with address := (h.address + 1) % 4294967296 } (addr :: given)).map fun r => (addr :: r.1, r.2)

/-- helper/leo-helper.cc:60-63: the addresses of the three networks, and the addresses allocated then; `h` is the new helper. -/
def leoAddressesFrom (h : AddrHelper) (ub : Nat) (given : List Ip) (isl gw ut : Nat) : Option ((List Ip × List Ip × List Ip) × List Ip) :=
  (AddrHelper.assign ub isl h given).bind fun a =>
  (AddrHelper.assign ub gw a.2.1 a.2.2).bind fun b =>
  (AddrHelper.assign ub ut b.2.1 b.2.2).map fun c => ((a.1, b.1, c.1), c.2.2)

/-- helper/leo-helper.cc:60-63 with the helper as its constructor leaves it. -/
def leoAddresses : Nat → List Ip → Nat → Nat → Nat → Option ((List Ip × List Ip × List Ip) × List Ip) :=
  leoAddressesFrom .create

end Verif

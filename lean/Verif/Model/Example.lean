import Verif.Model.Fleet
import Verif.Model.Helper
/-!
# The two example programs with a network

examples/leo-delay-tracing-example.cc and examples/leo-bulk-send-example.cc build the same network before they install their
applications.  Not modelled: the internet stack with its routing protocol, IP addresses, the loopback devices and the applications;
what they do with the devices is arbitrary traffic.
-/

namespace Verif

/-- The options that matter for the network (examples/leo-delay-tracing-example.cc:90-130,
examples/leo-bulk-send-example.cc:43-74).  `orbits` are those of the file or the built-in ones, see `tracingOrbits`; the programs
have the same built-in orbits as the tracing program.  The option `islRate` sets the default of the attribute `DataRate` of the devices,
on which nothing here depends. -/
structure ExampleArgs where
  prec : Int
  orbits : List OrbitRec
  latGws : Nat
  lonGws : Nat
  source : LatLong
  destination : LatLong
  constellation : String
  islEnabled : Bool

/-- What the programs have built when their applications are installed: the satellites, the positions of the stations (the grid and then
the two users), the devices and channels, and the two containers of devices. -/
structure ExampleNet where
  fleet : Fleet
  ground : List (Option Vec)
  build : Build
  utNet : List DevId
  islNet : List DevId

/-- `main` up to the applications (examples/leo-delay-tracing-example.cc:141-198, examples/leo-bulk-send-example.cc:84-142).  Nodes are
numbered in the order of their creation: the satellites, the grid, the two users.  `s` stands for the contents of objects that do
not exist yet. -/
noncomputable def exampleMain (junk : ℝ) (a : ExampleArgs) (s : Sys) : Outcome ExampleNet :=
  fleetOrbits junk a.prec Fleet.empty a.orbits >>= fun F =>
  gridInstall a.latGws a.lonGws >>= fun g =>
  let ground := g ++ (gndInstallPair a.source a.destination).map some
  let satellites := List.range F.mobs.length
  let stations := List.range' F.mobs.length ground.length
  LeoChannelHelper.create.setConstellation a.constellation >>= fun utCh =>
  utCh.install satellites stations (Build.start s) >>= fun ut =>
  if a.islEnabled then
    IslHelper.create.install satellites ut.1 >>= fun isl => .ok ⟨F, ground, isl.1, ut.2, isl.2⟩
  else .ok ⟨F, ground, ut.1, ut.2, []⟩

end Verif

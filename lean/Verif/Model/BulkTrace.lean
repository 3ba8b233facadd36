import Verif.Model.TraceFile
import Verif.Model.Helper
/-!
# The trace files of the bulk-send program

With `--pcap` the bulk-send program (examples/leo-bulk-send-example.cc:163-171) connects a stream of its own,
`tcp-bulk-send.tr`, and captures to all devices that `LeoChannelHelper` handles, before the simulation runs.

Simplification: loopback devices, which are no `LeoMockNetDevice` and passed over by the helper, are left out.  Every node gets
its loopback device when the internet stack is installed (line 127), after the ground/space devices (line 107) and before the
inter-satellite devices (line 139); so the interface index of a ground/space device is that of the model.
-/

namespace Verif

/-- The prefix of the captures (examples/leo-bulk-send-example.cc:170). -/
def bulkPrefix : FileName := "tcp-bulk-send".toList

/-- "Set up tracing if enabled" (examples/leo-bulk-send-example.cc:163-171).  `all` are the devices of all nodes; the stream
`tcp-bulk-send.tr` is stream 0. -/
def bulkTraces (pcap : Bool) (all : List DevId) (b : Build) : Outcome TSys :=
  let h : TSys := { sys := b.sys, ifIndex := b.ifIndex, pcap := [], ascii := [], hooks := [], streams := fun _ => [] }
  if pcap then
    Tracer.leoChannel.asciiAll (some 0) [] all h >>= fun h =>
    Tracer.leoChannel.pcapAll bulkPrefix false all h
  else .ok h

end Verif

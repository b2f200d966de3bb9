import Verif.Can.RxModel
import Verif.FilterConfig.Model

/-! Frame filters for subscriptions: `canadensis_can/src/driver.rs` L79-156. -/

namespace Verif.Can

open Verif.FilterConfig (Filter)

/-- `subject_filter` (`canadensis_can/src/driver.rs` L121-125). -/
def subjectFilter (subject : SubjectId) : Filter :=
  Filter.new 0b00010100111111111111110000000#32 (0b00000011000000000000000000000#32 ||| (subject.setWidth 32 <<< 8))

/-- `request_filter` (`canadensis_can/src/driver.rs` L135-140). -/
def requestFilter (service : ServiceId) (destination : NodeId) : Filter :=
  Filter.new 0b00011111111111111111110000000#32
    (0b00011000000000000000000000000#32 ||| ((service.setWidth 32 <<< 14) ||| (destination.setWidth 32 <<< 7)))

/-- `response_filter` (`canadensis_can/src/driver.rs` L150-156). -/
def responseFilter (service : ServiceId) (destination : NodeId) : Filter :=
  Filter.new 0b00011111111111111111110000000#32
    (0b00010000000000000000000000000#32 ||| ((service.setWidth 32 <<< 14) ||| (destination.setWidth 32 <<< 7)))

/-- `make_filter` (`canadensis_can/src/driver.rs` L102-112). The subscription is given by kind and port; the conversion of
the port to a subject or service ID is part of `filterCall`. -/
def makeFilter (sub : Kind × Nat) (localNode : Option NodeId) : Option Filter :=
  match sub.1 with
  | .message => some (subjectFilter (BitVec.ofNat 13 sub.2))
  | .request => localNode.map (fun n => requestFilter (BitVec.ofNat 9 sub.2) n)
  | .response => localNode.map (fun n => responseFilter (BitVec.ofNat 9 sub.2) n)

/-- The list built by the loop in `optimize_filters` (`canadensis_can/src/driver.rs` L89-94), when all allocations succeed. -/
def idealFilters (call : FilterCall) : List Filter :=
  call.subscriptions.filterMap (fun s => makeFilter s call.localNode)

/-- `optimize_filters` (`canadensis_can/src/driver.rs` L79-98): the filters passed to the callback. `none` is a panic;
`Except.error ()` is `OutOfMemoryError`, in which case the callback is not called. `oom` says that an allocation of the list
fails, `debug` that debug assertions are on. -/
def optimizeFilters (debug oom : Bool) (call : FilterCall) (maxFilters : Nat) : Option (Except Unit (List Filter)) :=
  if oom && !(idealFilters call).isEmpty then some (.error ())
  else
    match FilterConfig.optimize debug (idealFilters call) maxFilters with
    | none => none
    | some (out, _) => some (.ok out)

end Verif.Can

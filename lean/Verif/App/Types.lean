import Verif.Dsdl.Model
import Verif.Node.Model

/-!
The messages that the application layer uses (`canadensis_data_types/src/generated.rs`): instances of the model of generated code
(`Verif.Dsdl.Model`), and their values as the code of `canadensis/src` makes them. The generated file has more types; a definition here cites the
lines of the type and of its `size_bits`, `serialize` and `deserialize`.
-/

namespace Verif.App

open Verif.Dsdl Verif.Enc Verif.Node

/-- `heartbeat_1_0::SUBJECT` (canadensis_data_types/src/generated.rs L9174-9176). -/
def heartbeatSubject : SubjectId := 7509#13

/-- `list_1_0::SUBJECT` (canadensis_data_types/src/generated.rs L9589-9591). -/
def portListSubject : SubjectId := 7510#13

/-- `get_info_1_0::SERVICE` (canadensis_data_types/src/generated.rs L8748-8750). -/
def getInfoService : ServiceId := 430#9

/-- `Priority::Nominal` (canadensis_core/src/lib.rs L189-208). -/
def nominal : Priority := 4#3

/-- `Priority::Optional` (canadensis_core/src/lib.rs L189-208). -/
def optional : Priority := 7#3

/-- `milliseconds` (canadensis_core/src/time.rs L32-44). -/
def milliseconds (ms : Nat) : Duration := BitVec.ofNat 32 (1000 * ms)

/-! ### Heartbeat -/

/-- `uavcan.node.Health.1.0` (canadensis_data_types/src/generated.rs L9108-9172). -/
def healthType : Message := .struct none false (.data (.prim (.uint 2 true)) .scalar .nil)

/-- `uavcan.node.Mode.1.0` (canadensis_data_types/src/generated.rs L9384-9442). -/
def modeType : Message := .struct none false (.data (.prim (.uint 3 true)) .scalar .nil)

/-- `uavcan.node.Heartbeat.1.0` (canadensis_data_types/src/generated.rs L9173-9268). -/
def heartbeatType : Message :=
  .struct (some 96) false (.data (.prim (.uint 32 true)) .scalar (.data (.composite healthType) .scalar (.data (.composite modeType) .scalar
    (.data (.prim (.uint 8 true)) .scalar .nil))))

/-- `Heartbeat` (canadensis_data_types/src/generated.rs L9186-9224), where `health` and `mode` are the `value` of a `Health` and a `Mode`. -/
structure Heartbeat where
  uptime : BitVec 32
  health : BitVec 8
  mode : BitVec 8
  status : BitVec 8
deriving DecidableEq, Repr

/-- The value as the generated code sees it (canadensis_data_types/src/generated.rs L9186-9224). -/
def Heartbeat.val (h : Heartbeat) : Val :=
  .record [.num h.uptime.toNat, .record [.num h.health.toNat], .record [.num h.mode.toNat], .num h.status.toNat]

/-- A heartbeat as a payload (canadensis_data_types/src/generated.rs L9242-9252). -/
def Heartbeat.payload (h : Heartbeat) : Payload := .of heartbeatType.writer h.val

/-! ### Port list -/

/-- `uavcan.primitive.Empty.1.0` (canadensis_data_types/src/generated.rs L11432-11463). -/
def emptyType : Message := .struct none false .nil

/-- `uavcan.node.port.SubjectID.1.0` (canadensis_data_types/src/generated.rs L9830-9875). -/
def subjectIdType : Message := .struct none false (.data (.prim (.uint 13 true)) .scalar .nil)

/-- `uavcan.node.port.SubjectIDList.1.0` (canadensis_data_types/src/generated.rs L9986-10092). -/
def subjectIdListType : Message :=
  .union (some 32776) false (.cons (.prim .boolean) (.fixed 8192) (.cons (.composite subjectIdType) (.var 255) (.cons (.composite emptyType) .scalar .nil)))

/-- `uavcan.node.port.ServiceIDList.1.0` (canadensis_data_types/src/generated.rs L9776-9829). -/
def serviceIdListType : Message := .struct (some 1024) false (.data (.prim .boolean) (.fixed 512) .nil)

/-- `uavcan.node.port.List.1.0` (canadensis_data_types/src/generated.rs L9588-9672). -/
def portListType : Message :=
  .struct none false (.data (.composite subjectIdListType) .scalar (.data (.composite subjectIdListType) .scalar
    (.data (.composite serviceIdListType) .scalar (.data (.composite serviceIdListType) .scalar .nil))))

/-- `SubjectIDList` (canadensis_data_types/src/generated.rs L9995-10019), where a `SubjectID` is its `value`. -/
inductive SubjectIdList where
  | mask (mask : BitArray)
  | sparse (list : List (BitVec 16))
  | total
deriving DecidableEq, Repr

/-- The value as the generated code sees it (canadensis_data_types/src/generated.rs L9995-10019). -/
def SubjectIdList.val : SubjectIdList → Val
  | .mask m => .variant 0 (.bits m)
  | .sparse l => .variant 1 (.list (l.map fun s => .record [.num s.toNat]))
  | .total => .variant 2 (.record [])

/-- `List` (canadensis_data_types/src/generated.rs L9601-9626), where a `ServiceIDList` is its `mask`. -/
structure PortList where
  publishers : SubjectIdList
  subscribers : SubjectIdList
  clients : BitArray
  servers : BitArray
deriving DecidableEq, Repr

/-- The value as the generated code sees it (canadensis_data_types/src/generated.rs L9601-9626, L9785-9796). -/
def PortList.val (l : PortList) : Val := .record [l.publishers.val, l.subscribers.val, .record [.bits l.clients], .record [.bits l.servers]]

/-- A port list as a payload (canadensis_data_types/src/generated.rs L9639-9656). -/
def PortList.payload (l : PortList) : Payload := .of portListType.writer l.val

end Verif.App

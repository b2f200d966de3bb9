import Verif.Pnp.Model

/-!
Registers: `canadensis/src/register.rs`, `canadensis/src/register/basic.rs`, `canadensis/src/service/register_server.rs` and
`canadensis_derive_register_block/src/lib.rs`.

As in `Verif.Node.Model`, each call is given what the environment does during it. `none` is a panic. The node is a `CoreNode`.
-/

namespace Verif.Reg

open Verif.Dsdl Verif.Enc Verif.Node Verif.App Verif.Pnp

/-! ### Messages -/

/-- The variants of `Value` that hold an array of numbers (canadensis_data_types/src/generated.rs L12458-12510). -/
inductive Kind where
  | integer64 | integer32 | integer16 | integer8 | natural64 | natural32 | natural16 | natural8 | real64 | real32 | real16
deriving DecidableEq, Repr

/-- The bits of a number (canadensis_data_types/src/generated.rs L10808-11431). -/
def Kind.width : Kind → Nat
  | .integer64 | .natural64 | .real64 => 64
  | .integer32 | .natural32 | .real32 => 32
  | .integer16 | .natural16 | .real16 => 16
  | .integer8 | .natural8 => 8

/-- The DSDL type of a number (canadensis_data_types/src/generated.rs L10808-11431). -/
def Kind.prim : Kind → Prim
  | .integer64 => .int 64
  | .integer32 => .int 32
  | .integer16 => .int 16
  | .integer8 => .int 8
  | .natural64 => .uint 64 true
  | .natural32 => .uint 32 true
  | .natural16 => .uint 16 true
  | .natural8 => .uint 8 true
  | .real64 => .float64
  | .real32 => .float32
  | .real16 => .float16

/-- The capacity of the array (canadensis_data_types/src/generated.rs L10808-11431). -/
def Kind.capacity : Kind → Nat
  | .integer64 | .natural64 | .real64 => 32
  | .integer32 | .natural32 | .real32 => 64
  | .integer16 | .natural16 | .real16 => 128
  | .integer8 | .natural8 => 256

/-- The number of the variant (canadensis_data_types/src/generated.rs L12516-12602). -/
def Kind.variant : Kind → Nat
  | .integer64 => 4
  | .integer32 => 5
  | .integer16 => 6
  | .integer8 => 7
  | .natural64 => 8
  | .natural32 => 9
  | .natural16 => 10
  | .natural8 => 11
  | .real64 => 12
  | .real32 => 13
  | .real16 => 14

/-- The variant with a number (canadensis_data_types/src/generated.rs L12603-12628). -/
def kindOf : Nat → Option Kind
  | 4 => some .integer64
  | 5 => some .integer32
  | 6 => some .integer16
  | 7 => some .integer8
  | 8 => some .natural64
  | 9 => some .natural32
  | 10 => some .natural16
  | 11 => some .natural8
  | 12 => some .real64
  | 13 => some .real32
  | 14 => some .real16
  | _ => none

/-- A number as the generated code sees it (no counterpart in /repo): a number of the Rust type is its bits here. -/
def Kind.toVal (k : Kind) (x : BitVec k.width) : Val :=
  match k.prim with
  | .int _ => .int x.toInt
  | _ => .num x.toNat

/-- The bits of a number (no counterpart in /repo). -/
def Kind.ofVal (k : Kind) : Val → BitVec k.width
  | .num n => BitVec.ofNat _ n
  | .int z => BitVec.ofInt _ z
  | _ => 0

/-- A struct with one array of variable length, like `uavcan.primitive.String.1.0` (canadensis_data_types/src/generated.rs L12018-12073),
`uavcan.primitive.Unstructured.1.0` (L12074-12130) and `uavcan.primitive.array.*.1.0` (L10756-11431). -/
def arrayType (p : Prim) (capacity : Nat) : Message := .struct none false (.data (.prim p) (.var capacity) .nil)

/-- `uavcan.register.Value.1.0` (canadensis_data_types/src/generated.rs L12432-12630). -/
def valueType : Message :=
  .union none false (.cons (.composite emptyType) .scalar (.cons (.composite (arrayType (.uint 8 true) 256)) .scalar
    (.cons (.composite (arrayType (.uint 8 true) 256)) .scalar (.cons (.composite (arrayType .boolean 2048)) .scalar
    (.cons (.composite (arrayType (.int 64) 32)) .scalar (.cons (.composite (arrayType (.int 32) 64)) .scalar
    (.cons (.composite (arrayType (.int 16) 128)) .scalar (.cons (.composite (arrayType (.int 8) 256)) .scalar
    (.cons (.composite (arrayType (.uint 64 true) 32)) .scalar (.cons (.composite (arrayType (.uint 32 true) 64)) .scalar
    (.cons (.composite (arrayType (.uint 16 true) 128)) .scalar (.cons (.composite (arrayType (.uint 8 true) 256)) .scalar
    (.cons (.composite (arrayType .float64 32)) .scalar (.cons (.composite (arrayType .float32 64)) .scalar
    (.cons (.composite (arrayType .float16 128)) .scalar .nil)))))))))))))))

/-- `uavcan.register.Name.1.0` (canadensis_data_types/src/generated.rs L12379-12431). -/
def nameType : Message := arrayType (.uint 8 true) 255

/-- `uavcan.time.SynchronizedTimestamp.1.0` (canadensis_data_types/src/generated.rs L17344-17394). -/
def timestampType : Message := .struct none false (.data (.prim (.uint 56 false)) .scalar .nil)

/-- The request of `uavcan.register.Access.1.0` (canadensis_data_types/src/generated.rs L12145-12196). -/
def accessRequestType : Message := .struct none true (.data (.composite nameType) .scalar (.data (.composite valueType) .scalar .nil))

/-- The response of `uavcan.register.Access.1.0` (canadensis_data_types/src/generated.rs L12202-12281). -/
def accessResponseType : Message :=
  .struct none false (.data (.composite timestampType) .scalar (.data (.prim .boolean) .scalar (.data (.prim .boolean) .scalar
    (.padding 6 (.data (.composite valueType) .scalar .nil)))))

/-- The request of `uavcan.register.List.1.0` (canadensis_data_types/src/generated.rs L12298-12329). -/
def listRequestType : Message := .struct none true (.data (.prim (.uint 16 true)) .scalar .nil)

/-- The response of `uavcan.register.List.1.0` (canadensis_data_types/src/generated.rs L12340-12377). -/
def listResponseType : Message := .struct none false (.data (.composite nameType) .scalar .nil)

/-- `access_1_0::SERVICE` (canadensis_data_types/src/generated.rs L12133-12135). -/
def accessService : ServiceId := 384#9

/-- `list_1_0::SERVICE` (canadensis_data_types/src/generated.rs L12284-12286). -/
def listService : ServiceId := 385#9

/-- `Value` (canadensis_data_types/src/generated.rs L12441-12511), where the struct in a variant is its `value`. -/
inductive Value where
  | empty
  | string (bytes : List Byte)
  | unstructured (bytes : List Byte)
  | bit (bits : BitArray)
  | numbers (k : Kind) (values : List (BitVec k.width))
deriving DecidableEq, Repr

/-- The value as the generated code sees it (canadensis_data_types/src/generated.rs L12441-12511). -/
def Value.val : Value → Val
  | .empty => .variant 0 (.record [])
  | .string b => .variant 1 (.record [.list (b.map fun x => .num x.toNat)])
  | .unstructured b => .variant 2 (.record [.list (b.map fun x => .num x.toNat)])
  | .bit a => .variant 3 (.record [.bits a])
  | .numbers k vs => .variant k.variant (.record [.list (vs.map k.toVal)])

/-- The value that the generated code made (canadensis_data_types/src/generated.rs L12603-12628). A value of another shape does not occur. -/
def Value.ofVal : Val → Option Value
  | .variant 0 _ => some .empty
  | .variant 1 (.record [.list l]) => some (.string (l.map byteOf))
  | .variant 2 (.record [.list l]) => some (.unstructured (l.map byteOf))
  | .variant 3 (.record [.bits a]) => some (.bit a)
  | .variant i (.record [.list l]) => (kindOf i).map fun k => .numbers k (l.map k.ofVal)
  | _ => none

/-- `AccessRequest` (canadensis_data_types/src/generated.rs L12145-12166), where a `Name` is its `name`. -/
structure AccessRequest where
  name : List Byte
  value : Value
deriving DecidableEq, Repr

/-- The value as the generated code sees it (canadensis_data_types/src/generated.rs L12145-12166). -/
def AccessRequest.val (r : AccessRequest) : Val := .record [.record [.list (r.name.map fun x => .num x.toNat)], r.value.val]

/-- The request that the generated code made (canadensis_data_types/src/generated.rs L12184-12196). A value of another shape does not occur. -/
def AccessRequest.ofVal : Val → Option AccessRequest
  | .record [.record [.list l], v] => (Value.ofVal v).map fun value => ⟨l.map byteOf, value⟩
  | _ => none

/-- `AccessResponse` (canadensis_data_types/src/generated.rs L12202-12245), where a `SynchronizedTimestamp` is its `microsecond`. -/
structure AccessResponse where
  timestamp : BitVec 64
  isMutable : Bool
  persistent : Bool
  value : Value
deriving DecidableEq, Repr

/-- The value as the generated code sees it (canadensis_data_types/src/generated.rs L12202-12245). -/
def AccessResponse.val (r : AccessResponse) : Val := .record [.record [.num r.timestamp.toNat], .bool r.isMutable, .bool r.persistent, r.value.val]

/-- The response that the generated code made (canadensis_data_types/src/generated.rs L12264-12281). A value of another shape does not occur. -/
def AccessResponse.ofVal : Val → Option AccessResponse
  | .record [.record [.num t], .bool m, .bool p, v] => (Value.ofVal v).map fun value => ⟨BitVec.ofNat 64 t, m, p, value⟩
  | _ => none

/-- The index in a `ListRequest` (canadensis_data_types/src/generated.rs L12298-12305). A value of another shape does not occur. -/
def listRequestOfVal : Val → Option (BitVec 16)
  | .record [.num i] => some (BitVec.ofNat 16 i)
  | _ => none

/-- A `ListResponse` with this name as the generated code sees it (canadensis_data_types/src/generated.rs L12340-12351). -/
def listResponseVal (name : List Byte) : Val := .record [.record [.list (name.map fun x => .num x.toNat)]]

/-- The name in a `ListResponse` that the generated code made (canadensis_data_types/src/generated.rs L12340-12377). A value of another shape does not occur. -/
def listResponseOfVal : Val → Option (List Byte)
  | .record [.record [.list l]] => some (l.map byteOf)
  | _ => none

/-! ### Registers -/

/-- `Access` (canadensis/src/register.rs L60-71). -/
structure Access where
  isMutable : Bool
  persistent : Bool
deriving DecidableEq, Repr

/-- `Register` (canadensis/src/register.rs L73-106). A name is the bytes of a `&str`. `write` gives whether it returned `Ok`, and the register afterwards. -/
structure RegisterOps (R : Type) where
  name : R → List Byte
  access : R → Access
  read : R → Option Value
  write : R → Value → Option (Bool × R)

/-- The types that implement `RegisterType` (canadensis/src/register/basic.rs L303-313, L358-368, L375, L419, L448, L469), each with its value: a
number, an array of numbers (its length is the const parameter `N`), a `RegisterString`, an `Unstructured`, a `bool` and an array of `bool`. -/
inductive Cell where
  | number (k : Kind) (x : BitVec k.width)
  | numbers (k : Kind) (xs : List (BitVec k.width))
  | string (bytes : List Byte)
  | unstructured (bytes : List Byte)
  | bool (b : Bool)
  | bools (bs : List Bool)
deriving DecidableEq, Repr

/-- The loop that sets every bit (canadensis/src/register/basic.rs L473-475). -/
def setBits : List (Bool × Nat) → BitArray → Option BitArray
  | [], a => some a
  | (b, i) :: rest, a =>
    match a.set i b with
    | none => none
    | some a => setBits rest a

/-- The loop that stores every bit (canadensis/src/register/basic.rs L483-485); `none` is an index out of bounds. -/
def storeBits : List (Bool × Nat) → List Bool → Option (List Bool)
  | [], bs => some bs
  | (b, i) :: rest, bs => if i < bs.length then storeBits rest (bs.set i b) else none

/-- `RegisterType::read` (canadensis/src/register/basic.rs L281-285, L322-335, L376-380, L420-424, L449-453, L470-478). -/
def Cell.read : Cell → Option Value
  | .number k x => some (.numbers k [x])
  | .numbers k xs => if xs.length ≤ k.capacity then some (.numbers k xs) else some (.numbers k (xs.take k.capacity))
  | .string b => some (.string b)
  | .unstructured b => some (.unstructured b)
  | .bool b =>
    match BitArray.new 256 1 with
    | none => none
    | some a => (a.set 0 b).map .bit
  | .bools bs =>
    match BitArray.new 256 bs.length with
    | none => none
    | some a => (setBits bs.zipIdx a).map .bit

/-- `RegisterType::write` (canadensis/src/register/basic.rs L287-298, L341-353, L382-390, L426-434, L455-466, L480-493): whether it returned `Ok`, and the
value afterwards. -/
def Cell.write (c : Cell) (v : Value) : Option (Bool × Cell) :=
  match c, v with
  | .number k x, .numbers k' vs =>
    if h : k' = k then
      match vs with
      | [y] => some (true, .number k (h ▸ y))
      | _ => some (false, .number k x)
    else some (false, .number k x)
  | .numbers k xs, .numbers k' vs =>
    if h : k' = k then (if vs.length = xs.length then some (true, .numbers k (h ▸ vs)) else some (false, .numbers k xs))
    else some (false, .numbers k xs)
  | .string _, .string b => some (true, .string b)
  | .unstructured _, .unstructured b => some (true, .unstructured b)
  | .bool b, .bit a => if a.bitLength = 1 then (a.get 0).map fun b => (true, .bool b) else some (false, .bool b)
  | .bools bs, .bit a =>
    if a.bitLength = bs.length then
      match a.iter with
      | none => none
      | some l => (storeBits l.zipIdx bs).map fun bs => (true, .bools bs)
    else some (false, .bools bs)
  | c, _ => some (false, c)

/-- The registers of `canadensis/src/register/basic.rs`: `SimpleRegister` (L26-30), `ValidatedRegister` (L130-135) and `FixedStringRegister` (L506-511).
A validator is a function with a state of its own (`FnMut`, L245-259); one that panics is not modelled. -/
inductive Register (σ : Type) where
  | simple (name : List Byte) (access : Access) (value : Cell)
  | validated (name : List Byte) (access : Access) (value : Cell) (state : σ) (validator : σ → Cell → Bool × σ)
  | fixed (name value : List Byte)

namespace Register
variable {σ : Type}

/-- `name` (canadensis/src/register/basic.rs L75-77, L219-221, L527-529). -/
def name : Register σ → List Byte
  | .simple n _ _ => n
  | .validated n _ _ _ _ => n
  | .fixed n _ => n

/-- `access` (canadensis/src/register/basic.rs L79-81, L223-225, L531-536). -/
def access : Register σ → Access
  | .simple _ a _ => a
  | .validated _ a _ _ _ => a
  | .fixed _ _ => ⟨false, true⟩

/-- `read` (canadensis/src/register/basic.rs L83-85, L227-229, L538-543). -/
def read : Register σ → Option Value
  | .simple _ _ c => c.read
  | .validated _ _ c _ _ => c.read
  | .fixed _ v => if v.length ≤ 256 then some (.string v) else none

/-- `write` (canadensis/src/register/basic.rs L87-91, L231-240, L545-547). -/
def write (r : Register σ) (v : Value) : Option (Bool × Register σ) :=
  match r with
  | .simple n a c => (c.write v).map fun w => (w.1, .simple n a w.2)
  | .validated n a c s f =>
    match c.write v with
    | none => none
    | some (false, _) => some (false, .validated n a c s f)
    | some (true, new) => if (f s new).1 then some (true, .validated n a new (f s new).2 f) else some (false, .validated n a c (f s new).2 f)
  | .fixed _ _ => none

/-- The registers of `canadensis/src/register/basic.rs` as implementations of `Register` (L71-92, L214-241, L526-548). -/
def ops : RegisterOps (Register σ) := ⟨name, access, read, write⟩

/-- `set_value` (canadensis/src/register/basic.rs L66-68, L209-211), and what can be done with `value_mut` (L62-64, L205-207). A `FixedStringRegister` has no
such function. -/
def setValue (r : Register σ) (c : Cell) : Register σ :=
  match r with
  | .simple n a _ => .simple n a c
  | .validated n a _ s f => .validated n a c s f
  | r => r

/-- `FixedStringRegister::new` (canadensis/src/register/basic.rs L517-523). -/
def newFixed (name value : List Byte) : Option (Register σ) :=
  if name ≠ [] ∧ name.length ≤ 256 ∧ value.length ≤ 256 then some (.fixed name value) else none

end Register

/-! ### Blocks of registers -/

/-- `register_by_index` and `register_by_index_mut` of a derived `RegisterBlock` (canadensis_derive_register_block/src/lib.rs L32-43). A block is the list of
its fields; the fields can have different types, which are one type `R` here. Other implementations of `RegisterBlock` are not modelled. -/
def byIndex {R : Type} (block : List R) (i : Nat) : Option R := block[i]?

/-- `register_by_name_mut` of a derived `RegisterBlock` (canadensis_derive_register_block/src/lib.rs L44-49): the index of the register. -/
def byName {R : Type} (ops : RegisterOps R) (block : List R) (name : List Byte) : Option Nat := block.findIdx? fun r => name == ops.name r

/-! ### The handler -/

variable {R N Tid Trk E : Type}

/-- The response about a register that does not exist (canadensis/src/register.rs L175-182, L187-194, canadensis/src/service/register_server.rs L115-120). -/
def noRegister : AccessResponse := ⟨0, false, false, .empty⟩

/-- `register_handle_access` (canadensis/src/register.rs L230-248): the response, and the register afterwards. -/
def handleAccess (ops : RegisterOps R) (r : R) (request : AccessRequest) : Option (AccessResponse × R) :=
  let access := ops.access r
  let written := if access.isMutable && (match request.value with | .empty => false | _ => true) then (ops.write r request.value).map Prod.snd else some r
  match written with
  | none => none
  | some r => (ops.read r).map fun value => (⟨0, access.isMutable, access.persistent, value⟩, r)

/-- `RegisterHandler::handle_access_request` (canadensis/src/register.rs L167-197): the response, and the block afterwards. `utf8` is whether
`str::from_utf8` accepts the bytes. -/
def RegisterHandler.access (ops : RegisterOps R) (utf8 : List Byte → Bool) (block : List R) (request : AccessRequest) :
    Option (AccessResponse × List R) :=
  if utf8 request.name then
    match byName ops block request.name with
    | none => some (noRegister, block)
    | some i =>
      match byIndex block i with
      | none => none
      | some r => (handleAccess ops r request).map fun x => (x.1, block.set i x.2)
  else some (noRegister, block)

/-- The access request in `RegisterServerServiceHandler::handle_request` (canadensis/src/service/register_server.rs L115-135). -/
def RegisterServer.access (ops : RegisterOps R) (utf8 : List Byte → Bool) (block : List R) (request : AccessRequest) :
    Option (AccessResponse × List R) :=
  if utf8 request.name then
    match byName ops block request.name with
    | none => some (noRegister, block)
    | some i =>
      match byIndex block i with
      | none => none
      | some r =>
        let access := ops.access r
        match if access.isMutable then (ops.write r request.value).map Prod.snd else some r with
        | none => none
        | some r => (ops.read r).map fun value => (⟨0, access.isMutable, access.persistent, value⟩, block.set i r)
  else some (noRegister, block)

/-- `RegisterHandler::handle_list_request` (canadensis/src/register.rs L199-227) and the list request in `RegisterServerServiceHandler::handle_request`
(canadensis/src/service/register_server.rs L83-103): the name in the response. The name is cut to 256 bytes and copied to a `heapless::Vec<u8, 255>`. -/
def listName (ops : RegisterOps R) (block : List R) (index : BitVec 16) : Option (List Byte) :=
  match byIndex block index.toNat with
  | none => some []
  | some r =>
    let name := if (ops.name r).length ≤ 256 then ops.name r else (ops.name r).take 256
    if name.length ≤ 255 then some name else none

/-- `send_response` by a handler (canadensis/src/register.rs L265-269, L277-281, canadensis/src/service/register_server.rs L105-108, L137-140). -/
def respond (node : CoreNode N Tid Trk) (env : Env E) (token : ResponseToken N Tid) (block : List R) (payload : Payload) :
    Option (Handled (List R) N Tid Trk) :=
  let o := node.sendResponse env token (milliseconds 1000) payload
  match o.answer with
  | .panic => none
  | _ => some ⟨true, block, o.node, o.sent, []⟩

/-- `handle_request` of a `RegisterHandler` (canadensis/src/register.rs L255-288, with `RegisterHandler.access`) and of a `RegisterServerServiceHandler`
(canadensis/src/service/register_server.rs L73-147, with `RegisterServer.access`). -/
def handleRequest (access : List R → AccessRequest → Option (AccessResponse × List R)) (ops : RegisterOps R) (block : List R)
    (node : CoreNode N Tid Trk) (env : Env E) (token : ResponseToken N Tid) (header : ServiceHeader N Tid) (payload : List Byte) :
    Option (Handled (List R) N Tid Trk) :=
  if header.service = accessService then
    match parse accessRequestType AccessRequest.ofVal payload with
    | .panic => none
    | .error => some ⟨false, block, node, [], []⟩
    | .ok request =>
      match access block request with
      | none => none
      | some (response, block) => respond node env token block (.of accessResponseType.writer response.val)
  else if header.service = listService then
    match parse listRequestType listRequestOfVal payload with
    | .panic => none
    | .error => some ⟨false, block, node, [], []⟩
    | .ok index =>
      match listName ops block index with
      | none => none
      | some name => respond node env token block (.of listResponseType.writer (listResponseVal name))
  else some ⟨false, block, node, [], []⟩

/-- `RegisterHandler::subscribe_requests` (canadensis/src/register.rs L143-152): the answer and what was asked of the receiver. `env` is for the first
subscription and `env'` for the second. -/
def RegisterHandler.subscribe (node : CoreNode N Tid Trk) (env env' : Env E) : Answer Tid E × List (RxCall N) :=
  let o := node.subscribeRequest env accessService 515 (milliseconds 1000)
  match o.answer with
  | .ok =>
    let o' := o.node.subscribeRequest env' listService 2 (milliseconds 0)
    (o'.answer, o.rx ++ o'.rx)
  | a => (a, o.rx)

/-- `RegisterServerService::new` (canadensis/src/service/register_server.rs L34-45). -/
def RegisterServer.new (node : CoreNode N Tid Trk) (env env' : Env E) : Answer Tid E × List (RxCall N) :=
  let o := node.subscribeRequest env listService 2 (milliseconds 1000)
  match o.answer with
  | .ok =>
    let o' := o.node.subscribeRequest env' accessService 515 (milliseconds 1000)
    (o'.answer, o.rx ++ o'.rx)
  | a => (a, o.rx)

/-! ### Histories -/

/-- What happens to a block and its node (no counterpart in /repo: the caller's program and the network): a request is handed to the handler, the program
calls `write` on a register, or the node is used for something else. -/
inductive BlockOp (N Tid E : Type) where
  | request (env : Env E) (token : ResponseToken N Tid) (header : ServiceHeader N Tid) (payload : List Byte)
  | write (index : Nat) (value : Value)
  | other (op : Op N Tid E)

/-- One call (no counterpart in /repo): the block and its node afterwards; `none` is a panic. -/
def blockStep (access : List R → AccessRequest → Option (AccessResponse × List R)) (ops : RegisterOps R) (tids : TidOps Tid)
    (tops : TrackerOps N Tid Trk) (w : List R × CoreNode N Tid Trk) : BlockOp N Tid E → Option (List R × CoreNode N Tid Trk)
  | .request env token header payload => (handleRequest access ops w.1 w.2 env token header payload).map fun h => (h.state, h.node)
  | .write i v =>
    match byIndex w.1 i with
    | none => some w
    | some r => (ops.write r v).map fun x => (w.1.set i x.2, w.2)
  | .other op => some (w.1, (w.2.step tids tops op).node)

/-- A history of calls (no counterpart in /repo); `none` is a panic. -/
def blockRun (access : List R → AccessRequest → Option (AccessResponse × List R)) (ops : RegisterOps R) (tids : TidOps Tid) (tops : TrackerOps N Tid Trk)
    (w : List R × CoreNode N Tid Trk) (history : List (BlockOp N Tid E)) : Option (List R × CoreNode N Tid Trk) :=
  history.foldlM (fun w op => blockStep access ops tids tops w op) w

end Verif.Reg

import Verif.Reg.Runs
import Verif.Pnp.Props

/-!
Properties of registers (`canadensis/src/register.rs`, `canadensis/src/register/basic.rs`, `canadensis/src/service/register_server.rs`): C59 and C76 to
C79.
-/

namespace Verif.Reg

open Verif.Dsdl Verif.Enc Verif.Node Verif.App Verif.Pnp

variable {σ R N Tid Trk E : Type}

/-! ### An example -/

/-- A node with four registers: a number, three bits of which the validator wants the first to be set, a fixed string, and another register with the name of the
first. -/
def demoBlock : List (Register Nat) :=
  [.simple [97] ⟨true, true⟩ (.number .natural16 50),
   .validated [98, 98] ⟨true, false⟩ (.bools [true, false, true]) 0 (fun s c => (match c with | .bools (true :: _) => true | _ => false, s + 1)),
   .fixed [99] [1, 2, 3], .simple [97] ⟨true, true⟩ (.string [7])]

/-- The registers of `demoBlock` without validators, and an array of numbers. -/
def demoPlain : List (Register Nat) :=
  [.simple [97] ⟨true, true⟩ (.number .natural16 50), .fixed [99] [1, 2, 3], .simple [100] ⟨true, true⟩ (.numbers .real32 [1, 2]),
   .simple [101] ⟨false, true⟩ (.unstructured [7])]

/-- The header of a request from node 9 to node 7. -/
def demoHeader (service : ServiceId) : ServiceHeader (BitVec 7) (BitVec 5) := ⟨0, 3, 4, service, 9, 7⟩

/-- The token for the response. -/
def demoToken (service : ServiceId) : ResponseToken (BitVec 7) (BitVec 5) := ⟨service, 9, 3, 4⟩

/-- What a server makes of an access request of node 9: the contents of the block afterwards, and the payloads of the responses. -/
def demoAccess (s : Style) (block : List (Register Nat)) (p : List Byte) : Option (List Content × List (List Byte)) :=
  (s.handles Register.ops (fun _ => true) block demoCore (demoEnv .ok) (demoToken 384) (demoHeader 384) p).map fun out =>
    (out.state.map Register.content, out.sent.map (·.payload))

/-- A request in a history. -/
def demoRequest (p : List Byte) : BlockOp (BitVec 7) (BitVec 5) Unit := .request (demoEnv .ok) (demoToken 384) (demoHeader 384) p

/-- The contents of a block after a history. -/
def demoRun (s : Style) (block : List (Register Nat)) (history : List (BlockOp (BitVec 7) (BitVec 5) Unit)) : Option (List Content) :=
  (blockRun (s.access Register.ops fun _ => true) Register.ops canTid canTracker (block, demoCore) history).map fun w => w.1.map Register.content

/-! ### C59: access -/

/-- What an access request does to the first register with the name in it, for both servers. The register keeps its name and its access. It takes the value in
the request if it is mutable and accepts it, and keeps its content otherwise; all other registers are unchanged. The response has the access and the content
of the register after that. -/
theorem C59_access (s : Style) (utf8 : List Byte → Bool) (block : List (Register σ)) (node : CoreNode N Tid Trk) (id : N) (hid : node.nodeId = some id)
    (env : Env E) (token : ResponseToken N Tid) (header : ServiceHeader N Tid) (hs : header.service = accessService) (p : List Byte)
    (hu : utf8 (requestName p) = true) (c : Content) (hc : requestValue p = .content c) (i : Nat) (r : Register σ)
    (hi : firstNamed Register.ops (requestName p) block = some i) (hr : block[i]? = some r) (hf : r.fits = true) :
    ∃ r', r'.name = r.name ∧ r'.access = r.access ∧ r'.content = (if r.access.isMutable && r.accepts c then c else r.content) ∧
      s.handles Register.ops utf8 block node env token header p =
        some ⟨true, block.set i r', node, answer id env token (responseBytes r.access r'.content), []⟩ := by
  have hp := parse_request p
  rw [hc] at hp
  obtain ⟨v, h1, h2, h3⟩ := hp
  obtain ⟨r', w, a1, a2, a3, a4, a5, a6, -⟩ := s.access_some utf8 block ⟨requestName p, v⟩ hu hi hr h3 hf
  rw [h2] at a4
  refine ⟨r', a2, a3, a4, ?_⟩
  unfold Style.handles handleRequest
  rw [if_pos hs, h1]
  simp only [a1]
  rw [← a5]
  exact respond_of hid env token _ _ _ (accessResponse_writes r.access w a6 env.alloc)

-- The first register with the name takes the value 258, and the other one with the name is left alone; bits that the validator refuses are not taken.
example : demoCore.nodeId = some 7 ∧ (demoHeader 384).service = accessService ∧ requestName [1, 97, 10, 1, 2, 1] = [97] ∧
    requestValue [1, 97, 10, 1, 2, 1] = .content (.numbers .natural16 [258]) ∧ firstNamed Register.ops [97] demoBlock = some 0 ∧
    (demoBlock[0]?.map Register.fits) = some true ∧
    demoAccess .handler demoBlock [1, 97, 10, 1, 2, 1] =
      some ([.numbers .natural16 [258], .bits [true, false, true], .string [1, 2, 3], .string [7]], [[0, 0, 0, 0, 0, 0, 0, 3, 10, 1, 2, 1]]) ∧
    demoAccess .service demoBlock [2, 98, 98, 3, 3, 0, 6] =
      some ([.numbers .natural16 [50], .bits [true, false, true], .string [1, 2, 3], .string [7]], [[0, 0, 0, 0, 0, 0, 0, 1, 3, 3, 0, 5]]) ∧
    demoAccess .service demoBlock [2, 98, 98, 3, 3, 0, 3] =
      some ([.numbers .natural16 [50], .bits [true, true, false], .string [1, 2, 3], .string [7]], [[0, 0, 0, 0, 0, 0, 0, 1, 3, 3, 0, 3]]) := by
  decide +kernel

/-- A request for a name that no register has, or for a name that is not UTF-8, changes nothing. The response says that the register is empty, not mutable and
not persistent. This holds for every implementation of `Register`. -/
theorem C59_unknown (s : Style) (ops : RegisterOps R) (utf8 : List Byte → Bool) (block : List R) (node : CoreNode N Tid Trk) (id : N)
    (hid : node.nodeId = some id) (env : Env E) (token : ResponseToken N Tid) (header : ServiceHeader N Tid) (hs : header.service = accessService)
    (p : List Byte) (hn : utf8 (requestName p) = false ∨ ∀ r ∈ block, ops.name r ≠ requestName p) (c : Content) (hc : requestValue p = .content c) :
    s.handles ops utf8 block node env token header p =
      some ⟨true, block, node, answer id env token (responseBytes ⟨false, false⟩ .empty), []⟩ := by
  have hp := parse_request p
  rw [hc] at hp
  obtain ⟨v, h1, h2, h3⟩ := hp
  have hn' : utf8 (requestName p) = false ∨ firstNamed ops (requestName p) block = none := by
    rcases hn with h | h
    · exact .inl h
    · right
      cases hx : firstNamed ops (requestName p) block with
      | none => rfl
      | some i =>
        obtain ⟨r, g1, g2⟩ := firstNamed_lt hx
        exact absurd g2 (h r (List.mem_of_getElem? g1))
  unfold Style.handles handleRequest
  rw [if_pos hs, h1]
  simp only [s.access_none ops utf8 block ⟨requestName p, v⟩ hn']
  exact respond_of hid env token _ _ _ (accessResponse_writes ⟨false, false⟩ .empty rfl env.alloc)

example : requestName [1, 120, 10, 1, 2, 1] = [120] ∧ (∀ r ∈ demoBlock, r.name ≠ [120]) ∧
    demoAccess .handler demoBlock [1, 120, 10, 1, 2, 1] = some (demoBlock.map Register.content, [[0, 0, 0, 0, 0, 0, 0, 0, 0]]) := by decide +kernel

/-- A malformed access request changes nothing and is not answered. -/
theorem C59_malformed (s : Style) (ops : RegisterOps R) (utf8 : List Byte → Bool) (block : List R) (node : CoreNode N Tid Trk) (env : Env E)
    (token : ResponseToken N Tid) (header : ServiceHeader N Tid) (hs : header.service = accessService) (p : List Byte)
    (hc : requestValue p = .malformed) : s.handles ops utf8 block node env token header p = some ⟨false, block, node, [], []⟩ := by
  have hp := parse_request p
  rw [hc] at hp
  unfold Style.handles handleRequest
  rw [if_pos hs, hp]

-- A tag that does not exist, and 33 numbers of 64 bits.
example : requestValue [1, 97, 15] = .malformed ∧ requestValue [1, 97, 4, 33] = .malformed ∧
    demoAccess .service demoBlock [1, 97, 15] = some (demoBlock.map Register.content, []) := by decide +kernel

/-- A register that says that it is not mutable is never changed by requests, whatever its implementation, and whatever else is done with the node. -/
theorem C59_constant (s : Style) (ops : RegisterOps R) (utf8 : List Byte → Bool) (tids : TidOps Tid) (tops : TrackerOps N Tid Trk) (i : Nat) (r : R)
    (hm : (ops.access r).isMutable = false) (history : List (BlockOp N Tid E)) (hw : ∀ i v, BlockOp.write i v ∉ history) :
    ∀ (block block' : List R) (node node' : CoreNode N Tid Trk), block[i]? = some r →
      blockRun (s.access ops utf8) ops tids tops (block, node) history = some (block', node') → block'[i]? = some r := by
  induction history with
  | nil =>
    intro block block' node node' hr hrun
    injection hrun with hrun
    rw [← (Prod.mk.inj hrun).1]
    exact hr
  | cons op rest ih =>
    intro block block' node node' hr hrun
    obtain ⟨⟨b1, n1⟩, h1, h2⟩ := blockRun_cons _ _ _ _ _ _ _ _ hrun
    refine ih (fun i v hm => hw i v (by simp [hm])) b1 block' n1 node' ?_ h2
    cases op with
    | request env token header p =>
      simp only [blockStep] at h1
      cases ho : handleRequest (s.access ops utf8) ops block node env token header p with
      | none => rw [ho] at h1; cases h1
      | some out =>
        rw [ho] at h1
        injection h1 with h1
        have e : out.state = b1 := (Prod.mk.inj h1).1
        rw [← e]
        rcases (handles_touched s ops utf8 _ _ _ _ _ _ _ ho).1 with e | ⟨j, r2, v, ok, r', g1, g2, g3, g4, g5⟩
        · rw [e]; exact hr
        · rw [g5]
          by_cases hij : j = i
          · subst hij
            rw [hr] at g1
            injection g1 with g1
            rw [g1, g2] at hm
            cases hm
          · rw [List.getElem?_set_ne hij]
            exact hr
    | write i v => exact absurd (by simp) (hw i v)
    | other op =>
      simp only [blockStep] at h1
      injection h1 with h1
      rw [← (Prod.mk.inj h1).1]
      exact hr

example : (demoBlock[2]?.map fun r => (Register.ops.access r).isMutable) = some false ∧
    (demoRun .handler demoBlock [demoRequest [1, 99, 1, 1, 0, 5], demoRequest [1, 97, 10, 1, 2, 1], .other (.setNodeId (demoEnv .ok) 8),
      demoRequest [1, 99, 0]]) = some [.numbers .natural16 [258], .bits [true, false, true], .string [1, 2, 3], .string [7]] := by decide +kernel

/-- The value in a validated register always satisfies what the validator checks, after any history of requests and writes, if it did at first. -/
theorem C59_validated_partial (P : Cell → Prop) (s : Style) (utf8 : List Byte → Bool) (tids : TidOps Tid) (tops : TrackerOps N Tid Trk)
    (history : List (BlockOp N Tid E)) (hw : ∀ i v, BlockOp.write i v ∈ history → v.valid) (block block' : List (Register σ))
    (node node' : CoreNode N Tid Trk) (hb : ∀ r ∈ block, r.Guarded P)
    (hrun : blockRun (s.access Register.ops utf8) Register.ops tids tops (block, node) history = some (block', node')) :
    ∀ r ∈ block', r.Guarded P := by
  refine blockRun_invariant s Register.ops utf8 tids tops (fun r => r.Guarded P) ?_ history hw (block, node) (block', node') hb hrun
  intro r v ok r' hv hwr hg
  cases hx : r.writable with
  | false =>
    cases r with
    | fixed n v => cases hwr
    | simple => cases hx
    | validated => cases hx
  | true =>
    obtain ⟨r2, g1, -, -, -, -, -, g2⟩ := r.write_spec hx v hv
    have e : r2 = r' := by
      have : some (r.accepts v.content, r2) = some (ok, r') := by rw [← g1]; exact hwr
      injection this with this
      exact (Prod.mk.inj this).2
    rw [← e]
    exact g2 P hg

/-- What the validator in `demoBlock` checks. -/
def demoGuard : Cell → Prop
  | .bools (b :: _) => b = true
  | _ => False

example : (∀ r ∈ demoBlock, r.Guarded demoGuard) ∧
    demoRun .service demoBlock [.write 1 (.bit ⟨List.replicate 256 0, 3⟩), demoRequest [2, 98, 98, 3, 3, 0, 3], demoRequest [2, 98, 98, 3, 3, 0, 4]] =
      some [.numbers .natural16 [50], .bits [true, true, false], .string [1, 2, 3], .string [7]] := by
  constructor
  · intro r hr
    simp only [demoBlock, List.mem_cons, List.not_mem_nil, or_false] at hr
    rcases hr with h | h | h | h <;> subst h
    · trivial
    · refine ⟨rfl, fun s c h => ?_⟩
      revert h
      dsimp only
      split <;> first | exact fun _ => rfl | exact fun h => by cases h
    · trivial
    · trivial
  · decide +kernel

/-- The function of the program that sets the value does not ask the validator. -/
theorem C59_counterexample_set_value : ∃ r : Register Nat, r.Guarded demoGuard ∧ ¬ (r.setValue (.bools [false])).Guarded demoGuard := by
  refine ⟨.validated [98] ⟨true, false⟩ (.bools [true]) 0 (fun s c => (match c with | .bools (true :: _) => true | _ => false, s + 1)), ⟨rfl, fun s c h => ?_⟩,
    fun h => by cases h.1⟩
  revert h
  dsimp only
  split <;> first | exact fun _ => rfl | exact fun h => by cases h

/-- A block of registers without validators is a store of values: an access request changes it like `storeAccess`, and the response is the answer of the store. -/
theorem C59_store (s : Style) (utf8 : List Byte → Bool) (block : List (Register σ)) (hb : ∀ r ∈ block, r.plain = true) (node : CoreNode N Tid Trk) (id : N)
    (hid : node.nodeId = some id) (env : Env E) (token : ResponseToken N Tid) (header : ServiceHeader N Tid) (hs : header.service = accessService)
    (p : List Byte) (hu : utf8 (requestName p) = true) (c : Content) (hc : requestValue p = .content c) :
    ∃ block' : List (Register σ), (∀ r ∈ block', r.plain = true) ∧
      block'.map Register.entry = (storeAccess (requestName p) c (block.map Register.entry)).1 ∧
      s.handles Register.ops utf8 block node env token header p =
        some ⟨true, block', node, answer id env token (responseBytes (storeAccess (requestName p) c (block.map Register.entry)).2.1
          (storeAccess (requestName p) c (block.map Register.entry)).2.2), []⟩ := by
  have hplain : ∀ out, s.handles Register.ops utf8 block node env token header p = some out → ∀ r ∈ out.state, r.plain = true := by
    intro out h
    rcases (handles_touched s Register.ops utf8 block node env token header p out h).1 with e | ⟨j, r, v, ok, r', g1, -, g3, g4, g5⟩
    · rw [e]; exact hb
    · rw [g5]
      intro x hx
      rcases List.mem_or_eq_of_mem_set hx with h | h
      · exact hb x h
      · rw [h]; exact Register.write_plain g3 g4 (hb r (List.mem_of_getElem? g1))
  cases hi : firstNamed Register.ops (requestName p) block with
  | none =>
    have h := C59_unknown s Register.ops utf8 block node id hid env token header hs p (.inr fun r hr e => by
      have : ∀ b : List (Register σ), firstNamed Register.ops (requestName p) b = none → ∀ r ∈ b, r.name ≠ requestName p := by
        intro b
        induction b with
        | nil => intro _ r hr; cases hr
        | cons x b ih =>
          intro h
          rw [firstNamed] at h
          split at h
          · cases h
          · rename_i hx
            intro r hr
            rcases List.mem_cons.1 hr with e | e
            · rw [e]; exact hx
            · exact ih (by simpa using h) r e
      exact this block hi r hr e) c hc
    rw [storeAccess_none hi]
    exact ⟨block, hb, rfl, h⟩
  | some i =>
    obtain ⟨r, hr, -⟩ := firstNamed_lt hi
    have hpr := hb r (List.mem_of_getElem? hr)
    obtain ⟨r', g1, g2, g3, g4⟩ := C59_access s utf8 block node id hid env token header hs p hu c hc i r hi hr (Register.plain_fits hpr)
    have ec : r'.content = if r.access.isMutable && r.content.sameForm c then c else r.content := by
      rw [g3]
      cases hm : r.access.isMutable with
      | false => rfl
      | true => rw [Register.plain_accepts hpr hm]
    refine ⟨block.set i r', hplain _ g4, ?_, ?_⟩
    · rw [storeAccess_some hi hr, List.map_set, ← ec, ← g1, ← g2]
      rfl
    · rw [storeAccess_some hi hr, ← ec]
      exact g4

example : (∀ r ∈ demoPlain, r.plain = true) ∧
    (storeAccess [100] (.numbers .real32 [3, 4]) (demoPlain.map Register.entry)).2 = (⟨true, true⟩, .numbers .real32 [3, 4]) ∧
    demoAccess .handler demoPlain [1, 100, 13, 2, 3, 0, 0, 0, 4, 0, 0, 0] = some ([.numbers .natural16 [50], .string [1, 2, 3], .numbers .real32 [3, 4],
      .unstructured [7]], [[0, 0, 0, 0, 0, 0, 0, 3, 13, 2, 3, 0, 0, 0, 4, 0, 0, 0]]) ∧
    (storeAccess [100] (.numbers .real32 [3]) (demoPlain.map Register.entry)).2 = (⟨true, true⟩, .numbers .real32 [1, 2]) ∧
    (storeAccess [101] (.unstructured [3]) (demoPlain.map Register.entry)).2 = (⟨false, true⟩, .unstructured [7]) := by decide +kernel

/-- A block of registers without validators stays a store of values through every history of requests. -/
theorem C59_store_run (s : Style) (utf8 : List Byte → Bool) (tids : TidOps Tid) (tops : TrackerOps N Tid Trk) (history : List (BlockOp N Tid E))
    (hw : ∀ i v, BlockOp.write i v ∉ history) : ∀ (block block' : List (Register σ)) (node node' : CoreNode N Tid Trk), (∀ r ∈ block, r.plain = true) →
      node.nodeId.isSome = true →
      blockRun (s.access Register.ops utf8) Register.ops tids tops (block, node) history = some (block', node') →
      block'.map Register.entry = history.foldl (storeAfter utf8) (block.map Register.entry) := by
  induction history with
  | nil =>
    intro block block' node node' _ _ hrun
    injection hrun with hrun
    rw [← (Prod.mk.inj hrun).1]
    rfl
  | cons op rest ih =>
    intro block block' node node' hb hn hrun
    obtain ⟨⟨b1, n1⟩, h1, h2⟩ := blockRun_cons _ _ _ _ _ _ _ _ hrun
    have hp1 : ∀ r ∈ b1, r.plain = true := by
      refine blockRun_invariant s Register.ops utf8 tids tops (fun r => r.plain = true) (fun r v ok r' hv h hp => Register.write_plain hv h hp) [op]
        (fun i v hm => absurd (by simp_all) (hw i v)) (block, node) (b1, n1) hb ?_
      show (blockStep _ _ _ _ _ op >>= _) = _
      rw [h1]
      rfl
    cases op with
    | write i v => exact absurd (by simp) (hw i v)
    | other op =>
      simp only [blockStep] at h1
      injection h1 with h1
      obtain ⟨e1, e2⟩ := Prod.mk.inj h1
      have := ih (fun i v hm => hw i v (by simp [hm])) b1 block' n1 node' hp1 (by rw [← e2]; exact step_nodeId tids tops node op hn) h2
      rw [this, ← e1]
      rfl
    | request env token header p =>
      simp only [blockStep] at h1
      cases ho : handleRequest (s.access Register.ops utf8) Register.ops block node env token header p with
      | none => rw [ho] at h1; cases h1
      | some out =>
        rw [ho] at h1
        injection h1 with h1
        obtain ⟨e1, e2⟩ := Prod.mk.inj h1
        have hnode := (handles_touched s Register.ops utf8 _ _ _ _ _ _ _ ho).2
        have := ih (fun i v hm => hw i v (by simp [hm])) b1 block' n1 node' hp1 (by rw [← e2, hnode]; exact hn) h2
        rw [this, List.foldl_cons]
        congr 1
        obtain ⟨id, hid⟩ := Option.isSome_iff_exists.1 hn
        rw [← e1]
        show out.state.map Register.entry = if (decide (header.service = accessService) && utf8 (requestName p)) = true then _ else _
        by_cases hs : header.service = accessService
        · cases hc : requestValue p with
          | content c =>
            cases hu : utf8 (requestName p) with
            | true =>
              rw [if_pos (by simp [hs])]
              obtain ⟨b2, -, g2, g3⟩ := C59_store s utf8 block hb node id hid env token header hs p hu c hc
              have g3' := g3
              unfold Style.handles at g3'
              rw [ho] at g3'
              injection g3' with g3'
              rw [g3']
              exact g2
            | false =>
              rw [if_neg (by simp)]
              have g3 := C59_unknown s Register.ops utf8 block node id hid env token header hs p (.inl hu) c hc
              unfold Style.handles at g3
              rw [ho] at g3
              injection g3 with g3
              rw [g3]
          | malformed =>
            have g3 := C59_malformed s Register.ops utf8 block node env token header hs p hc
            unfold Style.handles at g3
            rw [ho] at g3
            injection g3 with g3
            rw [g3]
            split <;> rfl
          | bitOverflow =>
            have hp := parse_request p
            rw [hc] at hp
            unfold handleRequest at ho
            rw [if_pos hs, hp] at ho
            cases ho
        · rw [if_neg (by simp [hs])]
          have : out.state = block := by
            unfold handleRequest at ho
            rw [if_neg hs] at ho
            split at ho
            · split at ho
              · cases ho
              · injection ho with ho; rw [← ho]
              · split at ho
                · cases ho
                · exact (respond_keeps ho).1
            · injection ho with ho; rw [← ho]
          rw [this]

example : demoRun .handler demoPlain [demoRequest [1, 100, 13, 2, 3, 0, 0, 0, 4, 0, 0, 0], demoRequest [1, 97, 10, 1, 2, 1], demoRequest [1, 97, 15], demoRequest [1, 97, 0]] =
    some (([demoRequest [1, 100, 13, 2, 3, 0, 0, 0, 4, 0, 0, 0], demoRequest [1, 97, 10, 1, 2, 1], demoRequest [1, 97, 15], demoRequest [1, 97, 0]].foldl
      (storeAfter fun _ => true) (demoPlain.map Register.entry)).map (·.content)) := by decide +kernel

/-- An array of more numbers than fit in a value is cut when it is read, so no value that a client can send has its length: the register says that it is mutable,
but it never takes a value. -/
theorem C59_counterexample_long (k : Kind) (xs : List (BitVec k.width)) (h : k.limit < xs.length) (name : List Byte) (access : Access) (c : Content)
    (hc : c.fits = true) : (Register.simple (σ := σ) name access (.numbers k xs)).accepts c = false := by
  simp only [Register.accepts]
  cases c with
  | numbers k' ys =>
    simp only [Cell.holding]
    split
    · rename_i hk
      subst hk
      have : ys.length ≤ Kind.limit _ := of_decide_eq_true hc
      rw [if_neg (by omega)]
      rfl
    · rfl
  | _ => rfl

example : Kind.natural8.limit < (List.replicate 257 (0 : BitVec 8)).length := by decide +kernel

/-! ### C76: the list of registers -/

theorem numberAt_lt (p : List Byte) : ∀ n i, numberAt p i n < 256 ^ n
  | 0, _ => by simp [numberAt]
  | n + 1, i => by
    have := numberAt_lt p n (i + 1)
    have := (byte p i).isLt
    rw [numberAt, Nat.pow_succ]
    omega

/-- A list request with an index is answered with the name of the register at that index, or with an empty name if there is none; nothing changes. This holds for
every implementation of `Register` whose names have at most 255 bytes. -/
theorem C76_list_partial (s : Style) (ops : RegisterOps R) (utf8 : List Byte → Bool) (block : List R) (hl : ∀ r ∈ block, (ops.name r).length ≤ 255)
    (node : CoreNode N Tid Trk) (id : N) (hid : node.nodeId = some id) (env : Env E) (token : ResponseToken N Tid) (header : ServiceHeader N Tid)
    (hs : header.service = listService) (p : List Byte) :
    s.handles ops utf8 block node env token header p =
      some ⟨true, block, node, answer id env token (listResponseBytes ((block.map ops.name).getD (numberAt p 0 2) [])), []⟩ := by
  have hn : listName ops block (BitVec.ofNat 16 (numberAt p 0 2)) = some ((block.map ops.name).getD (numberAt p 0 2) []) := by
    unfold listName byIndex
    rw [BitVec.toNat_ofNat, Nat.mod_eq_of_lt (show numberAt p 0 2 < 2 ^ 16 from numberAt_lt p 2 0), List.getD_eq_getElem?_getD, List.getElem?_map]
    cases hr : block[numberAt p 0 2]? with
    | none => rfl
    | some r =>
      have := hl r (List.mem_of_getElem? hr)
      simp only [Option.map_some, Option.getD_some]
      rw [if_pos (show (ops.name r).length ≤ 256 by omega), if_pos this]
  unfold Style.handles handleRequest
  rw [if_neg (by rw [hs]; decide), if_pos hs, parse_list]
  simp only [hn]
  refine respond_of hid env token _ _ _ (listResponse_writes _ ?_ env.alloc)
  rw [List.getD_eq_getElem?_getD, List.getElem?_map]
  cases hr : block[numberAt p 0 2]? with
  | none => simp
  | some r => exact hl r (List.mem_of_getElem? hr)

/-- The name that node 9 gets for an index from node 7. -/
def demoListed (s : Style) (block : List (Register Nat)) (index : Nat) : Option (List (List Byte)) :=
  (s.handles Register.ops (fun _ => true) block demoCore (demoEnv .ok) (demoToken 385) (demoHeader 385) (numberBytes 2 index)).map fun out => out.sent.map (·.payload)

example : demoListed .handler demoBlock 1 = some [[2, 98, 98]] ∧ demoListed .service demoBlock 3 = some [[1, 97]] ∧
    demoListed .handler demoBlock 4 = some [[0]] ∧ demoListed .handler demoBlock 65535 = some [[0]] := by decide +kernel

/-- A register with a name of 256 bytes, which `FixedStringRegister::new` and the documentation of `Register::name` allow. -/
def demoLong : List (Register Nat) := [.fixed (List.replicate 256 97) [1]]

/-- A list request for a register with a name of 256 bytes makes both servers panic. -/
theorem C76_counterexample_name : Register.newFixed (σ := Nat) (List.replicate 256 97) [1] = some (.fixed (List.replicate 256 97) [1]) ∧
    demoListed .handler demoLong 0 = none ∧ demoListed .service demoLong 0 = none := by
  refine ⟨?_, by decide +kernel, by decide +kernel⟩
  unfold Register.newFixed
  rw [if_pos]
  decide +kernel

/-- The name that a client finds in the response to a list request with an index. -/
def listed (s : Style) (ops : RegisterOps R) (utf8 : List Byte → Bool) (block : List R) (node : CoreNode N Tid Trk) (env : Env E)
    (token : ResponseToken N Tid) (header : ServiceHeader N Tid) (index : Nat) : Option (List Byte) :=
  match s.handles ops utf8 block node env token header (numberBytes 2 index) with
  | some ⟨_, _, _, [t], _⟩ =>
    match parse listResponseType listResponseOfVal t.payload with
    | .ok name => some name
    | _ => none
  | _ => none

theorem listed_eq (s : Style) (ops : RegisterOps R) (utf8 : List Byte → Bool) (block : List R) (hl : ∀ r ∈ block, (ops.name r).length ≤ 255)
    (node : CoreNode N Tid Trk) (id : N) (hid : node.nodeId = some id) (env : Env E) (ha : env.alloc = true) (token : ResponseToken N Tid)
    (header : ServiceHeader N Tid) (hs : header.service = listService) (i : Nat) (hi : i < 65536) :
    listed s ops utf8 block node env token header i = some ((block.map ops.name).getD i []) := by
  have hnum : numberAt (numberBytes 2 i) 0 2 = i := by
    refine At.number (n := 2) ?_ hi
    have := at_middle [] (numberBytes 2 i) []
    simpa using this
  have hlen : ((block.map ops.name).getD i []).length ≤ 255 := by
    rw [List.getD_eq_getElem?_getD, List.getElem?_map]
    cases hr : block[i]? with
    | none => simp
    | some r => exact hl r (List.mem_of_getElem? hr)
  have hread : ∀ name : List Byte, name.length ≤ 255 → parse listResponseType listResponseOfVal (listResponseBytes name) = .ok name := by
    intro name hn
    rw [parse_listResponse]
    have h1 : byte (listResponseBytes name) 0 = BitVec.ofNat 8 name.length := rfl
    have h2 := (at_middle [BitVec.ofNat 8 name.length] name []).slice
    rw [List.append_nil] at h2
    rw [h1, BitVec.toNat_ofNat, Nat.mod_eq_of_lt (by omega)]
    exact congrArg _ h2
  unfold listed
  rw [C76_list_partial s ops utf8 block hl node id hid env token header hs, hnum]
  unfold answer
  rw [if_pos (.inr ha)]
  simp only [hread _ hlen]

/-- A client that asks for the names from index 0 on until it gets an empty name finds the names of all registers, in the order of the block, and each one as
often as it is there. It finds no other name. -/
theorem C76_enumerate_partial (s : Style) (ops : RegisterOps R) (utf8 : List Byte → Bool) (block : List R)
    (hl : ∀ r ∈ block, ops.name r ≠ [] ∧ (ops.name r).length ≤ 255) (hb : block.length ≤ 65535)
    (node : CoreNode N Tid Trk) (id : N) (hid : node.nodeId = some id) (env : Env E) (ha : env.alloc = true) (token : ResponseToken N Tid)
    (header : ServiceHeader N Tid) (hs : header.service = listService) :
    ((List.range 65536).map (listed s ops utf8 block node env token header)).takeWhile (· ≠ some []) = block.map fun r => some (ops.name r) := by
  have hmap : (List.range 65536).map (listed s ops utf8 block node env token header) =
      (block.map fun r => some (ops.name r)) ++ List.replicate (65536 - block.length) (some []) := by
    apply List.ext_getElem (by rw [List.length_append, List.length_replicate, List.length_map, List.length_map, List.length_range]; omega)
    intro i h1 h2
    rw [List.length_map, List.length_range] at h1
    rw [List.getElem_map, List.getElem_range, listed_eq s ops utf8 block (fun r hr => (hl r hr).2) node id hid env ha token header hs i h1]
    by_cases hi : i < block.length
    · rw [List.getElem_append_left (by simpa using hi)]
      simp [hi]
    · rw [List.getElem_append_right (by simpa using hi), List.getElem_replicate]
      simp [Nat.le_of_not_lt hi]
  have hstop : ∀ l : List R, (∀ r ∈ l, ops.name r ≠ []) → ∀ n,
      ((l.map fun r => some (ops.name r)) ++ List.replicate n (some [])).takeWhile (fun x => decide (x ≠ some [])) = l.map fun r => some (ops.name r) := by
    intro l
    induction l with
    | nil => intro _ n; cases n <;> simp [List.replicate_succ]
    | cons r l ih =>
      intro h n
      rw [List.map_cons, List.cons_append, List.takeWhile_cons, if_pos (by simpa using h r (by simp)), ih (fun r hr => h r (by simp [hr]))]
  rw [hmap]
  exact hstop block (fun r hr => (hl r hr).1) _

example : ∀ r ∈ demoBlock, r.name ≠ [] ∧ r.name.length ≤ 255 := by decide +kernel

example : ((List.range 6).map (listed .handler Register.ops (fun _ => true) demoBlock demoCore (demoEnv .ok) (demoToken 385) (demoHeader 385))).takeWhile (· ≠ some []) =
    [some [97], some [98, 98], some [99], some [97]] := by decide +kernel

/-- A register with an empty name hides those after it. -/
theorem C76_counterexample_empty :
    ((List.range 6).map (listed .handler Register.ops (fun _ => true) (.simple [] ⟨true, true⟩ (.bool true) :: demoBlock) demoCore (demoEnv .ok) (demoToken 385)
      (demoHeader 385))).takeWhile (· ≠ some []) = [] := by decide +kernel

/-! ### C77: no panics -/

/-- No request makes a server panic, if the node has an ID, the names have at most 255 bytes, the registers can be read, and the request does not hold more than
2048 bits. -/
theorem C77_request_partial (s : Style) (utf8 : List Byte → Bool) (block : List (Register σ)) (hb : ∀ r ∈ block, r.fits = true ∧ r.name.length ≤ 255)
    (node : CoreNode N Tid Trk) (hid : node.nodeId.isSome = true) (env : Env E) (token : ResponseToken N Tid) (header : ServiceHeader N Tid) (p : List Byte)
    (hp : header.service = accessService → requestValue p ≠ .bitOverflow) :
    (s.handles Register.ops utf8 block node env token header p).isSome = true := by
  obtain ⟨id, hid⟩ := Option.isSome_iff_exists.1 hid
  by_cases hs : header.service = accessService
  · cases hc : requestValue p with
    | bitOverflow => exact absurd hc (hp hs)
    | malformed => rw [C59_malformed s Register.ops utf8 block node env token header hs p hc]; rfl
    | content c =>
      cases hu : utf8 (requestName p) with
      | false => rw [C59_unknown s Register.ops utf8 block node id hid env token header hs p (.inl hu) c hc]; rfl
      | true =>
        cases hi : firstNamed Register.ops (requestName p) block with
        | none =>
          have hq := parse_request p
          rw [hc] at hq
          obtain ⟨v, h1, -, -⟩ := hq
          unfold Style.handles handleRequest
          rw [if_pos hs, h1]
          simp only [s.access_none Register.ops utf8 block ⟨requestName p, v⟩ (.inr hi)]
          exact Option.isSome_iff_exists.2 ⟨_, respond_of hid env token _ _ _ (accessResponse_writes ⟨false, false⟩ .empty rfl env.alloc)⟩
        | some i =>
          obtain ⟨r, hr, -⟩ := firstNamed_lt hi
          obtain ⟨r', -, -, -, g⟩ := C59_access s utf8 block node id hid env token header hs p hu c hc i r hi hr (hb r (List.mem_of_getElem? hr)).1
          rw [g]
          rfl
  · by_cases hl : header.service = listService
    · rw [C76_list_partial s Register.ops utf8 block (fun r hr => (hb r hr).2) node id hid env token header hl p]
      rfl
    · unfold Style.handles handleRequest
      rw [if_neg hs, if_neg hl]
      rfl

example : (∀ r ∈ demoBlock, r.fits = true ∧ r.name.length ≤ 255) ∧ demoCore.nodeId.isSome = true ∧ requestValue [1, 97, 3, 0, 8] ≠ .bitOverflow ∧
    (demoAccess .handler demoBlock [1, 97, 3, 0, 8]).isSome = true := by decide +kernel

/-- A request of five bytes that says that it holds 2049 bits makes every register server panic, whatever registers it has. -/
theorem C77_counterexample_bits (s : Style) (ops : RegisterOps R) (utf8 : List Byte → Bool) (block : List R) (node : CoreNode N Tid Trk) (env : Env E)
    (token : ResponseToken N Tid) (header : ServiceHeader N Tid) (hs : header.service = accessService) :
    s.handles ops utf8 block node env token header [1, 97, 3, 1, 8] = none := by
  have hc : requestValue [1, 97, 3, 1, 8] = .bitOverflow := by decide +kernel
  have hp := parse_request [1, 97, 3, 1, 8]
  rw [hc] at hp
  unfold Style.handles handleRequest
  rw [if_pos hs, hp]

/-- A register with 2049 values of `bool` makes the servers panic when it is read. -/
theorem C77_counterexample_bools : (Register.simple (σ := Nat) [97] ⟨true, true⟩ (.bools (List.replicate 2049 true))).read = none := by
  simp only [Register.read, Cell.read]
  rw [List.length_replicate, show BitArray.new 256 2049 = none by decide +kernel]

/-- No history of requests makes a server panic under the same conditions, whatever else is done with the node. -/
theorem C77_run_partial (s : Style) (utf8 : List Byte → Bool) (tids : TidOps Tid) (tops : TrackerOps N Tid Trk) (history : List (BlockOp N Tid E))
    (hw : ∀ i v, BlockOp.write i v ∉ history)
    (hp : ∀ env token header p, BlockOp.request env token header p ∈ history → header.service = accessService → requestValue p ≠ .bitOverflow) :
    ∀ (block : List (Register σ)) (node : CoreNode N Tid Trk), (∀ r ∈ block, r.fits = true ∧ r.name.length ≤ 255) → node.nodeId.isSome = true →
      (blockRun (s.access Register.ops utf8) Register.ops tids tops (block, node) history).isSome = true := by
  induction history with
  | nil => intro block node _ _; rfl
  | cons op rest ih =>
    intro block node hb hn
    have ih' := ih (fun i v hm => hw i v (by simp [hm])) (fun env token header p hm => hp env token header p (by simp [hm]))
    have hstep : ∀ w1, blockStep (s.access Register.ops utf8) Register.ops tids tops (block, node) op = some w1 →
        (∀ r ∈ w1.1, r.fits = true ∧ r.name.length ≤ 255) → w1.2.nodeId.isSome = true →
        (blockRun (s.access Register.ops utf8) Register.ops tids tops (block, node) (op :: rest)).isSome = true := by
      intro w1 h1 h2 h3
      unfold blockRun
      rw [List.foldlM_cons, h1]
      exact ih' w1.1 w1.2 h2 h3
    cases op with
    | write i v => exact absurd (by simp) (hw i v)
    | other op => exact hstep _ rfl hb (step_nodeId tids tops node op hn)
    | request env token header p =>
      obtain ⟨out, ho⟩ := Option.isSome_iff_exists.1 (C77_request_partial s utf8 block hb node hn env token header p (hp env token header p (by simp)))
      obtain ⟨ht, hnode⟩ := handles_touched s Register.ops utf8 _ _ _ _ _ _ _ ho
      refine hstep (out.state, out.node) (by simp only [blockStep]; unfold Style.handles at ho; rw [ho]; rfl) ?_ (by rw [hnode]; exact hn)
      rcases ht with e | ⟨i, r, v, ok, r', g1, g2, g3, g4, g5⟩
      · show ∀ r ∈ out.state, _
        rw [e]
        exact hb
      · show ∀ r ∈ out.state, _
        rw [g5]
        intro x hx
        rcases List.mem_or_eq_of_mem_set hx with h | h
        · exact hb x h
        · have hr := hb r (List.mem_of_getElem? g1)
          obtain ⟨r2, k1, k2, -, -, -, k3, -⟩ := r.write_spec (Register.writable_of_mutable g2) v g3
          have e : r2 = r' := by
            have : some (r.accepts v.content, r2) = some (ok, r') := by rw [← k1]; exact g4
            injection this with this
            exact (Prod.mk.inj this).2
          rw [h, ← e, k2]
          exact ⟨k3 hr.1, hr.2⟩

example : (demoRun .handler demoBlock [demoRequest [1, 97, 3, 0, 8], demoRequest [], demoRequest [200, 1, 2, 3], .other (.setNodeId (demoEnv .ok) 8),
    demoRequest [2, 98, 98, 3, 3, 0, 3]]).isSome = true := by decide +kernel

/-- A node without an ID panics when it answers. -/
theorem C77_counterexample_anonymous :
    (Style.handler.handles (E := Unit) Register.ops (fun _ => true) demoBlock (.new none 8 4 : CoreNode (BitVec 7) (BitVec 5) Can.CanTransferIdTracker)
      (demoEnv .ok) (demoToken 384) (demoHeader 384) [1, 97, 0]).isNone = true := by decide +kernel

/-! ### C78: clients and servers -/

theorem requestBytes_read (name : List Byte) (hn : name.length ≤ 255) (c : Content) (hc : c.fits = true) (more : List Byte) :
    requestName (requestBytes name c ++ more) = name ∧ requestValue (requestBytes name c ++ more) = .content c := by
  have h0 : byte (requestBytes name c ++ more) 0 = BitVec.ofNat 8 name.length := rfl
  have h1 : (byte (requestBytes name c ++ more) 0).toNat = name.length := by rw [h0, BitVec.toNat_ofNat, Nat.mod_eq_of_lt (by omega)]
  unfold requestName requestValue
  rw [h1]
  constructor
  · have := (at_middle [BitVec.ofNat 8 name.length] name (c.encode ++ more)).slice
    unfold requestBytes
    rw [List.append_assoc _ c.encode more]
    exact this
  · refine contentAt_encode c hc ?_
    have := at_middle ([BitVec.ofNat 8 name.length] ++ name) c.encode more
    rw [List.length_append, List.length_singleton] at this
    exact this

/-- A request that a client makes with the generated code has at most 515 bytes and arrives as it was made: the server finds the name and the value in it, also
if the transport adds bytes at the end. -/
theorem C78_request (name : List Byte) (hn : name.length ≤ 255) (v : Value) (hv : v.valid) :
    ∃ bytes, doSerialize (.of accessRequestType.writer (AccessRequest.val ⟨name, v⟩)) true = .bytes bytes ∧ bytes.length ≤ 515 ∧
      ∀ more, requestName (bytes ++ more) = name ∧ requestValue (bytes ++ more) = .content v.content := by
  have h := accessRequest_writes name hn v hv true
  rw [if_pos (.inr rfl)] at h
  refine ⟨_, h, ?_, fun more => requestBytes_read name hn v.content (Value.valid_fits hv) more⟩
  have := encode_length v hv
  simp only [requestBytes, List.length_append, List.length_singleton]
  omega

example : Value.valid (.numbers .integer32 [5, -6]) ∧ Value.valid (.bit ⟨List.replicate 256 255, 2048⟩) := by
  exact ⟨show Content.fits (.numbers .integer32 [5, -6]) = true by decide +kernel, by decide +kernel, by decide +kernel⟩

theorem responseBytes_read (access : Access) (c : Content) (hc : c.fits = true) :
    ∃ w, parse accessResponseType AccessResponse.ofVal (responseBytes access c) = .ok ⟨0, access.isMutable, access.persistent, w⟩ ∧ w.content = c ∧ w.valid := by
  have h := parse_response (responseBytes access c)
  have h8 : contentAt (responseBytes access c) 8 = .content c := by
    refine contentAt_encode c hc ?_
    have := at_middle (List.replicate 7 0 ++ [(if access.isMutable then 1 else 0) + (if access.persistent then 2 else 0)]) c.encode []
    rw [List.append_nil] at this
    exact this
  have hz : numberAt (responseBytes access c) 0 7 = 0 := by
    simp [numberAt, byte, responseBytes, List.replicate]
  have hf : byte (responseBytes access c) 7 = (if access.isMutable then 1 else 0) + (if access.persistent then 2 else 0) := by
    simp [byte, responseBytes, List.replicate]
  rw [h8, hz] at h
  obtain ⟨w, h1, h2, h3⟩ := h
  refine ⟨w, ?_, h2, h3⟩
  rw [h1]
  have b0 : bit (responseBytes access c) 7 0 = access.isMutable := by
    show (byte (responseBytes access c) 7).getLsbD 0 = _
    rw [hf]
    cases access.isMutable <;> cases access.persistent <;> decide
  have b1 : bit (responseBytes access c) 7 1 = access.persistent := by
    show (byte (responseBytes access c) 7).getLsbD 1 = _
    rw [hf]
    cases access.isMutable <;> cases access.persistent <;> decide
  rw [b0, b1]
  rfl

/-- The client reads in a response what the server put there. -/
theorem C78_response (access : Access) (v : Value) (hv : v.valid) :
    ∃ bytes, doSerialize (.of accessResponseType.writer (AccessResponse.val ⟨0, access.isMutable, access.persistent, v⟩)) true = .bytes bytes ∧
      ∃ w, parse accessResponseType AccessResponse.ofVal bytes = .ok ⟨0, access.isMutable, access.persistent, w⟩ ∧ w.content = v.content := by
  have h := accessResponse_writes access v hv true
  rw [if_pos (.inr rfl)] at h
  obtain ⟨w, h1, h2, -⟩ := responseBytes_read access v.content (Value.valid_fits hv)
  exact ⟨_, h, w, h1, h2⟩

theorem storeAccess_fits {name : List Byte} {c : Content} (hc : c.fits = true) : ∀ {entries : List Entry}, (∀ e ∈ entries, e.content.fits = true) →
    (storeAccess name c entries).2.2.fits = true
  | [], _ => rfl
  | e :: rest, h => by
    rw [storeAccess]
    split
    · dsimp only
      split
      · exact hc
      · exact h e (by simp)
    · exact storeAccess_fits hc fun e he => h e (by simp [he])

/-- A whole exchange with a block of registers without validators. A client writes a request with the generated code, the server handles these bytes, and the
client reads the response with the generated code. The client finds the answer of the store, and the block is the store afterwards. -/
theorem C78_exchange (s : Style) (utf8 : List Byte → Bool) (block : List (Register σ)) (hb : ∀ r ∈ block, r.plain = true) (node : CoreNode N Tid Trk) (id : N)
    (hid : node.nodeId = some id) (env : Env E) (ha : env.alloc = true) (token : ResponseToken N Tid) (header : ServiceHeader N Tid)
    (hs : header.service = accessService) (name : List Byte) (hn : name.length ≤ 255) (hu : utf8 name = true) (v : Value) (hv : v.valid) :
    ∃ bytes out t w, doSerialize (.of accessRequestType.writer (AccessRequest.val ⟨name, v⟩)) true = .bytes bytes ∧
      s.handles Register.ops utf8 block node env token header bytes = some out ∧
      out.state.map Register.entry = (storeAccess name v.content (block.map Register.entry)).1 ∧
      out.sent = [t] ∧ parse accessResponseType AccessResponse.ofVal t.payload = .ok w ∧ w.timestamp = 0 ∧
      ((⟨w.isMutable, w.persistent⟩ : Access), w.value.content) = (storeAccess name v.content (block.map Register.entry)).2 := by
  have h := accessRequest_writes name hn v hv true
  rw [if_pos (.inr rfl)] at h
  have hr := requestBytes_read name hn v.content (Value.valid_fits hv) []
  rw [List.append_nil] at hr
  obtain ⟨block', -, g2, g3⟩ := C59_store s utf8 block hb node id hid env token header hs (requestBytes name v.content) (by rw [hr.1]; exact hu) _ hr.2
  rw [hr.1] at g2 g3
  have hfit : (storeAccess name v.content (block.map Register.entry)).2.2.fits = true := by
    refine storeAccess_fits (Value.valid_fits hv) fun e he => ?_
    obtain ⟨r, hr, rfl⟩ := List.mem_map.1 he
    obtain ⟨w, -, k2, k3⟩ := r.read_spec (Register.plain_fits (hb r hr))
    show r.content.fits = true
    rw [← k2]
    exact Value.valid_fits k3
  obtain ⟨w, w1, w2, -⟩ := responseBytes_read (storeAccess name v.content (block.map Register.entry)).2.1 _ hfit
  refine ⟨_, _, ⟨.response ⟨env.now.plus (BitVec.ofNat 32 1000000), token.transfer, token.priority, token.service, id, token.client⟩, false, _⟩, _, h, g3, g2, ?_, w1, rfl, ?_⟩
  · unfold answer
    rw [if_pos (.inr ha)]
    rfl
  · rw [w2]

-- A client that sends the bytes for `[97]` and 258, and what it reads.
example : requestBytes [97] (.numbers .natural16 [258]) = [1, 97, 10, 1, 2, 1] ∧
    (match parse accessResponseType AccessResponse.ofVal [0, 0, 0, 0, 0, 0, 0, 3, 10, 1, 2, 1] with
      | .ok w => decide (w = ⟨0, true, true, .numbers .natural16 [258]⟩) | _ => false) = true := by decide +kernel

/-- A `RegisterHandler` asks the transport for requests of both services, and for enough bytes of each: 515 of an access request and 2 of a list request. If the
transport refuses the first, it does not ask for the second. -/
theorem C78_subscribe_handler (node : CoreNode N Tid Trk) (env env' : Env E) :
    (RegisterHandler.subscribe node env env').2 = .subscribeRequest 384 515 (BitVec.ofNat 32 1000000) ::
      (match env.subscribed with | .ok => [.subscribeRequest 385 2 0] | _ => []) ∧
    ((RegisterHandler.subscribe node env env').1 = .ok ↔ env.subscribed = .ok ∧ env'.subscribed = .ok) := by
  unfold RegisterHandler.subscribe CoreNode.subscribeRequest
  cases env.subscribed <;> cases env'.subscribed <;> simp [milliseconds, accessService, listService]

example : RegisterHandler.subscribe demoCore (demoEnv .ok) (demoEnv .ok) =
    (.ok, [.subscribeRequest 384 515 (BitVec.ofNat 32 1000000), .subscribeRequest 385 2 0]) := by decide +kernel

/-- A `RegisterServerService` asks the transport for requests of both services, and for enough bytes of each. -/
theorem C78_subscribe_service (node : CoreNode N Tid Trk) (env env' : Env E) :
    (RegisterServer.new node env env').2 = .subscribeRequest 385 2 (BitVec.ofNat 32 1000000) ::
      (match env.subscribed with | .ok => [.subscribeRequest 384 515 (BitVec.ofNat 32 1000000)] | _ => []) ∧
    ((RegisterServer.new node env env').1 = .ok ↔ env.subscribed = .ok ∧ env'.subscribed = .ok) := by
  unfold RegisterServer.new CoreNode.subscribeRequest
  cases env.subscribed <;> cases env'.subscribed <;> simp [milliseconds, accessService, listService]

example : RegisterServer.new demoCore (demoEnv .ok) { demoEnv .ok with subscribed := .error () } =
    (.transport (), [.subscribeRequest 385 2 (BitVec.ofNat 32 1000000), .subscribeRequest 384 515 (BitVec.ofNat 32 1000000)]) := by decide +kernel

/-! ### C79: the two servers -/

/-- The two register servers answer every request in the same way, if a write of the empty value to a mutable register does nothing. -/
theorem C79_same_any (ops : RegisterOps R) (utf8 : List Byte → Bool) (block : List R)
    (he : ∀ r ∈ block, (ops.access r).isMutable = true → ∃ ok, ops.write r .empty = some (ok, r)) (node : CoreNode N Tid Trk) (env : Env E)
    (token : ResponseToken N Tid) (header : ServiceHeader N Tid) (p : List Byte) :
    Style.handler.handles ops utf8 block node env token header p = Style.service.handles ops utf8 block node env token header p := by
  have : ∀ q, Style.handler.access ops utf8 block q = Style.service.access ops utf8 block q := by
    intro q
    simp only [Style.access, RegisterHandler.access, RegisterServer.access]
    split
    · split
      · rfl
      · split
        · rfl
        · rename_i r hr
          unfold byIndex at hr
          simp only [handleAccess]
          cases hm : (ops.access r).isMutable with
          | false => simp [Option.map_map, Function.comp_def]
          | true =>
            obtain ⟨name, value⟩ := q
            cases value with
            | empty =>
              obtain ⟨ok, e⟩ := he r (List.mem_of_getElem? hr) hm
              simp [e, Option.map_map, Function.comp_def]
            | _ =>
              simp only [Bool.and_self, if_true]
              split <;> simp [Option.map_map, Function.comp_def]
    · rfl
  unfold Style.handles
  unfold handleRequest
  simp only [this]

/-- A register of a program: a counter that every write increments. -/
def demoCounter : RegisterOps Nat := ⟨fun _ => [97], fun _ => ⟨true, false⟩, fun n => some (.numbers .natural32 [BitVec.ofNat 32 n]), fun n _ => some (true, n + 1)⟩

/-- With a register for which a write of the empty value does something, the servers differ: to read the register is to write it with a
`RegisterServerService`, but not with a `RegisterHandler`. -/
theorem C79_counterexample :
    (Style.handler.handles demoCounter (fun _ => true) [5] demoCore (demoEnv .ok) (demoToken 384) (demoHeader 384) [1, 97, 0]).map (·.state) = some [5] ∧
    (Style.service.handles demoCounter (fun _ => true) [5] demoCore (demoEnv .ok) (demoToken 384) (demoHeader 384) [1, 97, 0]).map (·.state) = some [6] := by
  decide +kernel

/-- The two register servers answer every request in the same way, if the registers are those of the library. -/
theorem C79_same (utf8 : List Byte → Bool) (block : List (Register σ)) (node : CoreNode N Tid Trk) (env : Env E)
    (token : ResponseToken N Tid) (header : ServiceHeader N Tid) (p : List Byte) :
    Style.handler.handles Register.ops utf8 block node env token header p = Style.service.handles Register.ops utf8 block node env token header p :=
  C79_same_any Register.ops utf8 block (fun r _ hm => ⟨false, r.write_empty (Register.writable_of_mutable hm)⟩) node env token header p

example : demoAccess .handler demoBlock [1, 97, 0] = demoAccess .service demoBlock [1, 97, 0] ∧
    demoAccess .handler demoBlock [1, 97, 0] = some (demoBlock.map Register.content, [[0, 0, 0, 0, 0, 0, 0, 3, 10, 1, 50, 0]]) := by decide +kernel

end Verif.Reg

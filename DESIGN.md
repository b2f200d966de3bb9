# Formal model of samcrow/canadensis: design

The model is written in Lean 4 (toolchain 4.33.0, Mathlib modules imported singly where needed).
`lean/Verif/<Area>/Model.lean` holds the model (every definition cites the Rust file and lines it models),
`Lemmas.lean` the helper lemmas, and `Props.lean` the small independent specification, the property theorems
(`Cnn_...`), and for each theorem an `example` that meets its hypotheses in a concrete case.

## Conventions

* Rust integers are `BitVec n` where wrap-around or bit operations matter, and `Nat` for sizes, indices and
  counters that the code cannot make overflow (sizes are bounded by memory).  Where a Rust operation
  panics (indexing, `expect`, overflow-checked subtraction) the model returns an explicit `panic` value.
* Loops are structural recursion over the list they iterate, or recursion on fuel with a theorem that holds for every fuel.
* `&mut self` methods are functions from state to (result, state).
* Generic parameters of the code (clocks, drivers, transports, allocators) are function parameters or
  oracle lists of the model, so the theorems quantify over every environment behaviour.
* A property that the code violates is stated in full, its negation is proved with a concrete witness
  (`Cnn_..._counterexample`), and the strongest true part is proved as `Cnn_..._partial`.

## Trusted base

* The Lean 4.33.0 kernel. No axiom is declared; no `sorry`, `native_decide`, `bv_decide`.  The theorems depend on at most
  `propext`, `Classical.choice`, `Quot.sound`.
* The hand translation from Rust to Lean (this is what the citations are for).
* Behaviour of dependencies that are not in /repo, modelled from their documentation:
  `fugit` instants (wrapping comparison: `a < b` iff `a - b` wrapped exceeds half the range; `a - b` panics if `a < b`),
  `heapless` vectors and maps (bounded, error when full; `collect` panics when full), `zerocopy` (byte layout of `repr(C)` structs),
  `itertools` (`multi_cartesian_product`, `combinations_with_replacement`), `crc_any` (CRC-64/WE), `embedded-hal`/`nb` error kinds,
  `pest` (ordered choice, greedy repetition without backtracking, silent rules give no pair; `Peg.lean` has the rules), `num-bigint` (`parse`, `pow`,
  which panics for exponents that do not fit in 128 bits), `u32::from_str_radix` of the standard library (accepts a leading `+`),
  `bxcan` (three mailboxes; `transmit` puts a frame into a free one, displaces a less urgent one or blocks; which one is left open, except that C109
  assumes that it blocks while a frame with the same ID waits), `socketcan` and Linux (a socket takes at most 512 filters; a frame passes if one matches), `object` (what it
  tells of an image is arbitrary in C110), `heck` (splitting names into words and joining them, for ASCII; `Front/Heck.lean`), `proc_macro2` and `syn` (tokens; which literals are strings and what they say), `clap` (types of values, defaults of flags) and the file system (`rename` is atomic, a failed write leaves any bytes).
* Allocation: `fallible_collections` reserve either succeeds or fails; the model gives the choice to the environment where a property mentions it.
* Not modelled: logging, `Debug` formatting, `defmt`, `unsafe` layout details, OS sockets (except as lists of what is read and written, in `Verif/Drv`), spans and
  messages of parse errors, the limits of memory and stack, threads (the library is single threaded).
* Packages (`package.rs`, `type_key.rs`, `keywords.rs`) are modelled in `Verif/Pkg`: a directory is the list of entries `walkdir` yields, in any order,
  each with its path components and kind. `walkdir` itself, reading a file's bytes, and file-system metadata are not modelled. `regex` is modelled by
  `Pkg/Regex.lean` (leftmost-first captures, proved to be exactly the anchored match). The `BTreeMap` is a list sorted by key.
* The shipped data types (`Verif/Shipped`): `Table.lean` is transcribed by a script that reads `canadensis_data_types/src/generated.rs` as text (280 types and the fixed port
IDs). The script is trusted for the transcription; that each entry is what the generator writes for its definition is proved. Constants of the types, `Debug`, `TryFrom` and the names of the
types are not in the table.
* The macro and the command-line program are modelled in `Verif/Macro`: from tokens or options to the modules that are generated. Texts and places of errors, and writing the output file, are not modelled.
* The FlexCAN driver of `examples/s32k146_node` is modelled in `Verif/Flex`: message buffers, memory layout, filters, `send`, `receive`, the values of CTRL1 and FDCTRL that `init` writes, and the adapter in `main.rs`. Not modelled: the other
  registers (modes, masks), how the peripheral applies filters, memory-mapped access and fences, and the other examples.
* The program `optimize_filters` is modelled in `Verif/Tool/FilterModel.lean`, and the example `register_client` in `Verif/Reg/Client.lean` (its handler and what it prints; not the socket, the
  loop's timeout of two seconds without answers, and texts of errors).

## Plan per property

| id | what is modelled | how it is proved |
|----|------------------|------------------|
| C01 | `Crc16CcittFalse` as a 16-bit shift register (`core/crc.rs`) | linearity and injectivity of the one-bit step; digesting 16 bits `w` from state `s` is `step^16 (s xor w)` |
| C02 | `Crc32c`, `CrcTracker` | tracker state after any list characterised by induction |
| C03 | same | xor-linearity: the difference of two runs is a run of the difference; non-zero differences stay non-zero |
| C04 | `make_can_id`, `make_pseudo_id`, `parse_can_id` | bit-level case analysis on `BitVec 32` |
| C05 | `push_inner`, `Breakdown`, `calculate_frame_stats` | induction over the payload with the breakdown invariant |
| C06 | C05 model plus receiver model | the receiver's buildup state after k frames is the first k chunks |
| C07 | `push_inner` on `ArrayQueue` model | reservation contract C18 |
| C08 | `Buildup::add` with explicit panic | exact characterisation of panicking inputs; witness; partial |
| C09 | `checked_accept_non_anonymous` | case analysis over every state and frame |
| C10 | receiver as a state machine over sessions | non-interference by induction on the history |
| C11 | `accept_frame` etc. | invariant over operation histories |
| C12 | `accept_anonymous` and others | witness; partial for non-anonymous |
| C13 | receiver model | ghost trace invariant by induction over the history |
| C14 | same as C09 | case analysis |
| C15 | `DynamicSubscriptionManager` | refinement to a function map, induction over the history |
| C16 | packed tracker | refinement to 128 counters |
| C17 | `ArrayQueue` ring buffer | refinement to a sorted list |
| C18 | queues' `try_reserve` | refinement |
| C19 | `flush_single_queue` with an oracle driver | induction over the loop; witness for the driver error case |
| C20 | `driver.rs` filters | bit lemmas plus C21 |
| C21 | `optimize` | loop invariant; witness for reuse |
| C22 | deduplicator | invariant over histories |
| C23 | redundant driver / queue | case analysis for every pair of drivers |
| C24 | `apply_filters` with an allocation oracle | witness |
| C25, C26 | header encode/decode as byte lists | byte lemmas plus C01/C03 |
| C27, C28 | COBS encoder as buffer-writing loop and as list function | refinement of the buffer loop by the list function; round trip under the exact side condition; witness |
| C29-C31 | serial receiver state machine | composition of C25, C28, C02 |
| C32 | serial transmit queue | induction |
| C33, C34 | UDP breakdown, buildup | induction; witness for split CRC |
| C35-C38 | UDP receiver | witness / case analysis / invariant |
| C39, C40 | address mapping; multicast bookkeeping | bit lemmas; invariant over histories |
| C41-C44 | cursors over byte buffers | refinement to lists of bits |
| C45-C47 | `BitArray` | same; witness |
| C48-C50 | bit length set expressions | structural induction; pigeonhole for repetition; witness for padding |
| C51, C52 | publisher, requester | invariant over histories |
| C53 | `CoreNode` dispatch | case analysis |
| C54-C56 | `MinimalNode`, `HeartbeatService`, `BasicNode`, `PortListService`, with the message types as generated from DSDL | induction over calls, on top of C51, C65, C67 and C68; witnesses |
| C57, C58, C74, C75 | plug-and-play server and both clients, both message versions as generated from DSDL, CRC-64/WE | induction over histories, on top of C51, C67 and C68; witnesses |
| C59, C76-C79 | both register servers, the register types, derived blocks, and the register messages as generated from DSDL; other implementations of `Register` are any four functions; `str::from_utf8` is any predicate | bytes of the messages by C67 and C68; case analysis for every register type; induction over histories; witnesses |
| C60 | handler chain | induction over chains |
| C61 | the three session tables, with `heapless::LinearMap` and `BTreeMap` as lists | refinement to a map, for all histories |
| C62, C63 | serial receiver state machine | invariant relating the state to the bytes received so far |
| C64 | `do_serialize` over any lawful serializer | write-cursor refinement of C43/C44 |
| C65 | `CoreNode` as a state machine over calls, with clock, allocator, transmitter and receiver as environment | invariant over histories |
| C66 | `AnonymousPublisher` | induction over sends |
| C67 | the compiler's lengths and alignment flags, and the generated `size_bits` and `serialize`, as functions of the data type (a tree) | mutual induction over the type; the specification appends bits without length sets |
| C68 | the generated `deserialize` | mutual induction over the type, on a buffer that starts with the bits of the value |
| C69 | the same, on arbitrary bytes | mutual induction: every read ends on a cursor of the same buffer |
| C70 | the same, on two buffers with the same bits | mutual induction, relation between the two runs |
| C71 | the compiler's length sets | mutual induction with C48 |
| C72 | `BasicNode::receive`, `NodeInfoHandler` | induction over received transfers, with C60 |
| C73 | `impl Node for BasicNode` | invariant of the port list over histories |
| C80 | the bit registers of the CRC models | congruence of polynomials over ZMod 2 modulo the generator, by induction over the message |
| C83-C85, C87 | the DSDL compiler from parsed statements to compiled types, with the values and operators of expressions; Unicode normalization, powers, sorting of sets of sets, rounding to floating-point numbers and the list of reserved words are any functions | the compiler is generic in how names are looked up: a relation between two runs gives the result in terms of one file and a table; invariant over the statements of a file; witnesses |
| C86 | the same compiler; the lengths of members by the rules of DSDL, as a predicate on numbers by recursion over the members (`LenSpec.lean`) | an invariant says that the length in the state of the compiler is that of the members so far; sets of lengths are exact by C48 and C49; induction along the order of the types |
| C81 | values, operators and attributes of the DSDL compiler (`Value.lean`, `Operators.lean`, `Expr.eval` in `Compile.lean`); the specification (`ExprSpec.lean`) says when values are the same without the order in which sets are kept | the order of values is a total order that agrees with sameness on values without sets of lengths inside; operators by cases; an invariant over statements and files gives that all values are in order |
| C82 | the same, with panics as outcomes (`PanicInv.lean`) | the invariant of C81, plus the names of pending and compiled files, rules out all panics but those of undefined operations |
| C88 | the steps of the code generator between a compiled type and the type of `Verif.Dsdl.Model` (`Generate.lean`): nested types, and structs that become enums | induction along the order of the types; then C67, C68 and C70 |
| C89 | the names of generated items, the registered external packages, and the tree of modules (`Names.lean`); the conversion into snake case is a parameter | induction over prefixes, paths and types; version numbers are read back from the name of the module |
| C90 | `pest` grammars in general (`Peg.lean`), the grammar of DSDL rule by rule (`Grammar.lean`), the functions that turn pairs into statements (`Ast.lean`) | each rule uses only rules of lower rank before it matches a character, so a depth linear in the text is enough; the shape of the pairs of every rule, by induction over derivations, makes each `unwrap` succeed |
| C91 | the same; `WrittenSpec.lean` says what a text stands for, without reference to the grammar | induction over pairs: the text of each pair stands for what the function gives |
| C92 | the same | each way of writing something is matched as a whole if what follows does not continue it (`Forward*.lean`, `Complete*.lean`), by induction over `WrittenSpec.lean`; with C91 the parser reads exactly what is described, and as matching is a function no text stands for two definitions |
| C93 | the same | from C91 and C92: the description of the texts is closed under putting them together |
| C94, C95 | file names, paths and names of types with the patterns of the `regex` crate: `Pkg/Regex.lean` models matching with named groups in the crate's order, and each pattern is transcribed; decimal digits outside ASCII are any characters | the matcher finds exactly the matches that there are (`run_iff`); a text with dots splits in one way, so the groups are determined |
| C96 | `RESERVED` and `IDENTIFIER`, transcribed, with the two characters outside ASCII that fold to letters | each alternative against a direct description |
| C97, C98 | the map of a package as a sorted list, the calls on it; a directory is the list of entries that `walkdir` gives (names as text or as bytes that are not UTF-8), in any order, and entries may be errors | invariant over all calls; success is equivalent to a condition that does not mention the order; sorted lists with the same entries are equal |
| C99 | all of the above with the parser (C90-C93) and the compiler (C83-C87); what is on the disk is any function of paths | composition of C98, C92, C84 and C85. All files are parsed before any is compiled, which differs from the code only if the parser panics |
| C100 | frames of each transfer as the transmitter makes them (C05), any subsequence of them arriving, receiver as in C06-C11 | invariant over the stream: after frames of a transfer, the expected ID is its own or the next one, so that a transfer at most 30 later is never a repetition; other calls at the receiver are removed by C10 |
| C101 | the node of C51, the generated code of C67/C68, the stream of C100 joined in `Verif/End`; the program of the node is any list of calls (`Publishes`) | composition: what `publish` hands over carries the serialized value (induction over the program), its IDs are consecutive (C51), C100 for the bus and the receiver, C68 for the payload followed by zeros |
| C102 | the receiver and the frames of C29–C33, many frames in one list of events; `keep` picks the sessions one looks at | what one frame does to the receiver, whether or not it is wanted (`frame_any`: nothing, or the transfer, and which sessions it changes), then induction over the transfers; the prefix version by sending the rest later |
| C103 | the node of C51, the generated code of C67/C68, the queue of C32, the receiver of C102 joined in `Verif/End` | composition as in C101: the transfers in the queue are some of those handed over (C32), so their IDs increase (64 bits do not wrap), C102 for the session of the subject, C68 for the payload |
| C104 | `BxCanDriver` with three mailboxes; the controller's choices are arbitrary | count of each frame over the places where it can be, by induction over the steps |
| C105 | the queue of copies (capacity 2) | induction over the steps, with the number of outstanding copies |
| C106 | `receive`, with the list of what the controller has received | induction over the steps |
| C107 | `apply_filters` of both drivers, banks and sockets | composition of C20 and C21; merged masks have 29 bits |
| C108 | `LinuxCan` with a socket as a list | induction over the steps |
| C109 | `flush_single_queue` with `ArrayQueue` and the driver of C104 | invariant per CAN ID: what was sent, what is in a mailbox, what is in the queue, in the order of the pushes; queue operations by C17 |
| C110 | the checksum tool as a function on bytes and on states of the files, `get_crc`; what the crate `object` finds is arbitrary | lemma on overwriting for the bytes; the CRC is linear, so that a short change is detected as in C03; cases of failures for the file |
| C111 | `SubjectIdList` beside the generated `SubjectIDList.1.0` as an instance of the generated types of C67 | both write the same list of bits; both read the same numbers at the same positions |
| C112 | The programs of client and server are `Requests`/`Responds` over the node model (C50-C53), the bus is C100's (any frames may be lost, but not all of 30 in a row), the receivers are the CAN receiver model. The stream of responses is completed by responses of which nothing arrives, one for each unanswered request, so that its transfer IDs are those of the requests; then C100 and the C67/C68 round trip apply to both directions. Frames that other clients of the same service are sent are ignored by the receiver (`elsewhere`). Partial: C67/C68 exclusions. |
| C113 | The client is the PnP client (C58, C75), the transmitter (C11), the receiver (C15-C22), a queue for one frame and the controller (C107) together; a run is any sequence of calls, arrivals and sent mailboxes | The invariant: nothing is in the mailboxes, and the queue is occupied after the first request. Violated: no request reaches the bus and the second one panics. What is received: `handle_incoming_frames` returns exactly what the transfers of the receiver over the extended frames that arrive grant (`grants`). |
| C114 | A stream is a list of shipments (a transfer, the pieces of C33, what arrives of them in order) | The run of the session (C36) over the frames of each shipment is followed by cases: nothing is incomplete before, or an incomplete transfer is. `certain` is the independent description of the transfers that must be returned. Violated: an incomplete transfer is never given up, the first datagram of the next transfer is lost with it, and the second one of a transfer of two begins a new incomplete transfer; so one lost datagram stops a stream of transfers of two datagrams for ever. |
| C115 | the node of C51, the generated code of C67/C68, `push` over a socket that records what it is given (C33), the stream of C114 joined in `Verif/End`; what arrives of each message is any sublist of what the socket was given | composition as in C101 and C103; the pieces of a payload are unique, so what is given to the socket are datagrams of C114 |
| C116 | as C109 | invariant: the accepted frames are a permutation of those sent, dropped late, in a mailbox and in the queue; with the order of C109 a sublist of the same length |
| C117 | `Device` in `Verif/End/StackModel.lean`: `CanTransmitter::push` into the queue and controller of C109; node, generated code and receiver as in C101 | the device does what a system of C109 does (refinement: `push` is all frames or none); the frames of the session are those with one CAN ID; then C116 for the order and completeness, and C101 |
| C118 | `Header`, `Message`, `shift_index` of the FlexCAN driver in `Verif/Flex/Model.lean` | the words as sums of shifted fields, then arithmetic; the arbitration value is the number that the bits on the wire are, so comparing numbers is comparing at the first difference. That long frames are refused is false: counterexample |
| C119 | `message_buffer_space` and `legacy_fifo_space` | linear arithmetic for each of the four sizes and all numbers |
| C120 | `FlexCan::send`, `FlexCan::receive` and `FlexCanDriver`; the interrupt flag and the code read back after an abort are environment | the header that `send` reads determines the frame in the buffer; invariant over all sequences of operations for the ledger; four counterexamples |
| C121 | `Warn.lean`: the checks of names, and the compiler again with the set of warnings as part of its state; `Heck.lean`: the conversions of names | compiling with and without warnings are related step by step with the relation used for C84 (`Rel.lean`); the warnings of a run are a fold over those of its types; styles of names by induction over characters |
| C122 | `Inner.lean`: the names of fields and variants in the generated code; specification of identifiers and keywords of Rust | the names of members differ (C89); the conversion to camel case is injective on names that are words beginning with letters, because words can be read off the capital letters |
| C123 | `Inner.lean`: type and literal of constants, extent in bytes | the compiler has checked the range of a constant, so rounding the width up and printing keep the value; decimal digits by induction |
| C124 | `Macro/Model.lean`: tokens, parser, statements, packages, generation; `Macro/Spec.lean`: the commands, their texts and what they mean | parser accepts exactly the texts of commands, each has one reading; then induction over the commands; what compiling and generating give is C84, C89 and C97 |
| C125 | `Macro/Program.lean`: options, directories, code, rustfmt | both programs add the same files in the same order; splitting undoes joining for names without the separators |
| C126 | client, queue, link, server and back, from the models of node, serial transmitter and receiver; vocabulary of calls shared with C112 | C52 gives increasing IDs to the requests, tokens bring them back, so both sessions are streams for C102; payloads by C64, C67, C68 |
| C127 | the same over the models of the UDP transmitter and receiver | as C126, with C114 for the streams |
| C128 | the shipped types (`canadensis_data_types/src/generated.rs`): the statements of their functions as data (`Shipped/Code.lean`, an interpreter) and their definitions (`Shipped/Table.lean`); the generator, from definitions to statements (`Shipped/Generate.lean`) | every program that the generator writes does what `Dsdl/Model.lean` says, by induction over fields and variants; the table is equal to what the generator writes, by evaluation in the kernel; then C67 |
| C129 | the same; values are read when nothing comes after them (`Dsdl/ReadsEnd.lean`) | C68 without the position after the last field; which types always satisfy its conditions is a predicate on types, evaluated for the table |
| C130 | the same | C69 and C70, conditions evaluated for the table |
| C131 | the least and greatest length of the values of a type (`Shipped/Bounds.lean`) | induction over types; evaluated and compared with the comments |
| C132 | the constants in the same file | evaluation of the whole list |
| C133 | no new code: parser (C90-C93), packages (C94-C99), compiler (C80-C87), generator (C88, C123) and generated code (C67-C70) together | the grammar relation gives the widths that C88 and C123 assume; the rest is composition |
| C134 | `Verif.Docs`: `handle_comment` and `append_comment` beside the state machine of `Verif.Front`, over the lines the parser gives; `Documented keep ls d` says from the lines alone which comments are about which declaration | invariant over the lines: the state is determined by the statements before it (with `_offset_` used or not), the later of the last constant and the last field is the last declaration |
| C135 | `has_enum_directive` as a search for a line that starts with the directive, in the comments of C134, with `generate_rust_type` of C88 | comments of a parsed text have no line feed (C91), so that lines of the joined text are the comments |
| C136 | `optimize_filters.rs` from the arguments to the lines printed, with `u32::from_str_radix`, `{:#010x}` and `optimize` as modelled for C21 | exact acceptance by the grammar of numbers; what is printed reads back as ID and mask, and the filters of the printed lines accept every ID |
| C137 | the handler of `register_client.rs` with its sorted map, connected to the two servers of C59 and C76-C79 by requests that are answered in any order | invariant over the answers so far: requests sent, entries of the map, the transfer IDs of unanswered requests are different |
| C138 | `Bls/Wide.lean`: the functions of C48 and C49 with `u64`, overflow checks and debug assertions | agreement with the functions of C48 and C49 by induction over expressions; every remainder and every sum of remainders is at most the greatest length |
| C139 | `Can/BusesSpec.lean`: the deduplicator of C22 in front of the receiver of C100, arrivals on a clock that does not wrap | frames passed on as a recursive filter, which is the deduplicator's by C22; those from different interfaces are more than the timeout apart, so the frame numbers increase; division of increasing numbers among the transfers, then C100 |
| C140 | `End/PortsModel.lean`: the node of C65 and the receiver of C15 as one, where the receiver's answers are the ones that the node sees | invariant over histories: what is in the receiver's tables is what the history of calls and answers says; then C15 and C11 |
| C141 | `End/NodePorts.lean`: the node of C65 with any receiver; `End/TransportPorts.lean`: with the receivers of the serial and UDP models | laws that a receiver has to meet (a successful subscription stays until it is unsubscribed, nothing else changes), an invariant over histories from the laws alone, and the laws for the two receivers |
| C142 | `End/UdpGroups.lean`: the node of C141 over UDP with the groups of its socket | an invariant of the receiver that the groups are those of its subscriptions, kept by every call that does not change an ID; then C141 says what the subscriptions are |
| C143 | `Flex/Filter.lean`: the bytes of the filters of the FlexCAN driver | the words as sums of fields, then arithmetic. Counterexample for two extended IDs |
| C144 | `Flex/Filter.lean`: blocks of memory of the FlexCAN driver and their capacities | cases over sizes, lists of blocks in general; agreement with the numbering of C119 |
| C145 | `Core/Ids.lean`: the wrappers of integers as in the code (a `u16` or `u8` that could hold more), all functions that make one, and the set of IDs that can be got | induction over how an ID is got; bit masks as remainders; numbers in texts as in C136; `C145_bit_vectors` justifies the bit vectors that stand for these IDs in the rest of the model |
| C146 | `Flex/Init.lean`: the values written to CTRL1 and FDCTRL by `init`, with the writers of fields of svd2rust, and the memory that `send` uses. Not modelled: MCR, CTRL2, the masks, freeze mode, and what the peripheral does with the values | bit by bit through the writers, then as numbers. Counterexample for a first block of larger buffers |
| C147 | `Core/Equal.lean`: the comparisons and copies of headers and transfers, field by field | cases over the kinds; exactness of the comparisons of IDs is a hypothesis on the transport |

## Where the code disagrees with a property

Each of these is a theorem (`..._counterexample`), with the strongest true part proved beside it.

| id | disagreement |
|----|--------------|
| C08 | in a checked build, a two-frame transfer whose two frames have fewer than two bytes together panics (`usize` underflow) |
| C12 | an anonymous CAN message is returned whole, whatever the extent of the subscription |
| C14 | a half-received CAN transfer does not time out against a start frame with the same transfer ID |
| C19 | a frame on which the driver reports an error other than `WouldBlock` is lost |
| C20 | `set_id` does not reapply the hardware filters |
| C21 | `optimize` on a buffer that already holds filters keeps them |
| C24 | the first filter list is stored incomplete when memory runs out |
| C25 | a frame index of 2^31 or more is not read back |
| C28, C29 | the COBS decoder drops a zero that follows 254 non-zero bytes |
| C31 | a serial frame is lost when the receiver is in the middle of a header |
| C34 | a UDP transfer whose last of several datagrams has 1 to 3 bytes is never received, nor is the next one of several datagrams |
| C35 | the UDP receiver does not check the destination of a service transfer |
| C36 | after an incomplete UDP transfer the same later transfer is returned twice |
| C37 | the UDP receiver panics when the last transfer of a session is more than 2^31 microseconds old |
| C38 | a UDP transfer can start with a datagram whose index is not 0 |
| C40 | (outside of the property) `set_id` leaves the socket in the group of the old node ID |
| C45 | reading a bit array whose length is a multiple of 8 and below its capacity, at a byte boundary, consumes the whole capacity |
| C46 | `write_aligned_bytes` on a misaligned cursor does not panic; it overwrites the bits already written in the current byte |
| C49 | the remainders of a set padded to an alignment that neither divides the divisor nor is divided by it are wrong: 3 bits padded to a byte are "a multiple of 3" |
| C54 | a health that is not less than 4 (the field is public) is reported modulo 4, a mode that is not less than 8 modulo 8 |
| C55 | ports that transfer handlers or users of `node_mut` start or stop, and ports from before the basic node was made, are not in the port list; a call whose heartbeat is not sent does not count towards the ten |
| C56 | with more than 255 publishers or message subscriptions, `publish_port_list` panics |
| C67 | the size of a fixed-size type with an array of delimited composites, or of a union of delimited composites, does not include the delimiter headers: `serialize` panics |
| C67 | the size of a type of variable size does not include the gaps before composites: `serialize` panics |
| C67 | a zero-copy type with a delimited composite in it is written without the delimiter header |
| C67 | an empty array of composites does not align the cursor, and the next field may be written with an aligned function: panic |
| C67 | a saturated unsigned integer is truncated; a union with exactly 256 variants gets a 16-bit tag; a bit array may be longer than the type allows |
| C68 | a negative integer of 5 bits is read as positive |
| C68 | padding at the end of a sealed composite is not skipped: the fields after it are misread |
| C68 | a bit array of variable length, see C45 |
| C69 | a `bool[<=10]` whose length field says 17 panics (any sender can do this); 16 is accepted |
| C69 | an array with a 32-bit length field of 2^31 or more is read as empty and not rejected |
| C71 | the length sets miss the delimiter headers of arrays and variants and the array lengths of variants |
| C57 | a server that chooses an ID itself reserves it for everyone: every client gets the same ID; a heartbeat makes the ID of its source the next one to be given out; the search from the end is used as an index from the start and overwrites an assigned ID |
| C58 | neither the subject nor the source of a reply is checked; a version 2 client adopts the ID 0 from a request with its unique ID |
| C74 | the server answers replies; a heartbeat of the greatest node ID, and `assign` with it, panic; `new` does not subscribe to heartbeats |
| C75 | `PnpClient::send_request` panics if the transmitter is busy; `PnpClientService::new` panics in a debug build with version 1 on Classic CAN; `PnpClient` subscribes with an extent of 9 bytes also for version 2, whose replies have 18 |
| C59 | `set_value` and `value_mut` of a validated register do not ask the validator |
| C76 | a list request for a register with a name of 256 bytes, which the documentation allows, panics; a register with an empty name hides the ones after it |
| C77 | an access request that announces more than 2048 bits panics (any node can send it); so does the reading of a register of more than 2048 values of `bool` |
| C79 | `RegisterServerService` writes a mutable register also if the request has the empty value, `RegisterHandler` does not |
| C84 | a reference to a type in the wrong case is accepted if the type is not yet compiled, and then the type is known by the wrong name only |
| C87 | an extent smaller than the type, named fields and arrays of void types, a field with the name of a constant, a field with a reserved name, and arrays without elements are accepted |
| C86 | lengths of arrays of delimited types lack the headers, and lengths of delimited members are those of this version only; the length of an array that is a variant of a union lacks its prefix; a request is not rounded up to bytes; `_bit_length_` of an array of variable length lacks its prefix |
| C88 | an enum with a constant of 2^32 or more makes the code generator panic (`Discriminant too large`) |
| C89 | two messages (or services) with fixed ports, the same version, and names that are the same in snake case give two constants `SUBJECT` (`SERVICE`) in one module; the request and the response of a service give two functions `test_layout` in one module; a package `_` becomes `_0`, which can be another package, and is called `_` in other crates |
| C81 | `_offset_ \| {8}` (also `&` and `^`) is an error although `_offset_ == {8}` is accepted; `{_offset_} == {{8}}` is false although `_offset_ == {8}` is true; remainders of `_offset_` by numbers that are not powers of two are wrong for padded lengths; `{1, 'a'}` is accepted and `{'a', 1}` is not |
| C82 | `1 / 0`, `1 % 0`, `_offset_ % 0` and `0 ** -1` in a file make the compiler panic; sets of sets are sorted with a comparison that is not an order |
| C90 | `@print 1e340282366920938463463374607431768211456` makes the parser panic |
| C91 | `0.1_5` is 0.015 (`_` counts as a place after the point); `'\u+041'` is accepted as `A` |
| C92 | `@print byte_count` is an error though `uint8 byte_count` is a field; the same for all names that begin with `bool`, `byte`, `utf8`, `true`, `false` or a type such as `uint8`; `@print .5` and `@print 1.min` are errors (`1 .min` is not) |
| C98 | after `add_files` has failed, some of the files may already be in the package, depending on the order in which the file system lists them |
| C104 | the bxCAN driver looks at deadlines only when another frame is to be transmitted, so a frame may be sent after its deadline |
| C105 | the bxCAN driver drops a third loopback copy, and makes copies when a frame is put into a mailbox, also of frames that are then displaced or aborted; the time of a copy is not the time of sending |
| C107 | the Linux driver panics if there are more than 512 subscriptions (the socket refuses more filters) or if memory runs out, as it does not limit the number of filters |
| C108 | the Linux driver never returns copies of frames with the loopback flag |
| C110 | the tool writes a file with the extension `tmp` in place, so that it is lost if the write fails; another file of the same name with the extension `tmp` is lost; zeros added up to a multiple of eight bytes are not detected |
| C111 | `SubjectIdList` is limited to 255 subjects by a constant that is never evaluated: a list of 256 or more can be made, is written with its length modulo 256, and fewer subjects are read back |
| C113 | `BxCanPnpClient::publish_request` puts the request into a queue that nothing flushes (`AnonymousPublisher::send` does not, and the client has no such method): no request is ever sent, and the second call panics because the queue is full |
| C114 | after one datagram of a transfer of two is lost over UDP, none of any number of following transfers of two datagrams is returned: any datagram, also a last one, can begin a transfer, an index that does not match loses both, and an incomplete transfer has no timeout |
| C118 | `FlexCan::send` accepts a `Frame` of up to 64 bytes and writes only 8 of them into the buffer, with the length code of the whole frame |
| C120 | the loop `while iflag1 & (1 << 8) != 0 {}` in `FlexCan::send` that should wait for the outcome of an abort has the wrong sense: it spins forever once the flag is set (nothing in the loop clears it), and otherwise it does not wait, so the code that is read may be the one just written. That the peripheral sets the flag when the abort is decided is from its manual, not from `/repo` |
| C120 | `FlexCan::receive` panics when a frame with a length code of 9 to 15 arrives, which classic CAN allows: it slices an array of 8 bytes with the length of CAN FD. Any node on the bus can cause it |
| C120 | `FlexCanDriver::receive` turns remote frames into data frames of zeros, and `transmit` hands displaced frames back with the time stamp 0 |
| C121 | the name that a warning suggests can be the one suggested for another constant (`aB`, `a_b`), a reserved word (`_Bool`), no identifier (`_1`), or empty (`_`) |
| C122 | two variants of a union that differ only by `_` before a digit (`a1`, `a_1`), or two such constants of an enum, become the same Rust variant, and nothing warns about it |
| C122 | the fields `_` and `_0` become the same; a field called like a keyword of Rust (`fn`) keeps its name; the variants `_1` and `self` become `1` and `Self` |
| C123 | an extent of 2^32 bytes or more is accepted by the compiler and panics in the generator |
| C123 | float16 constants are rounded to float32 first: 1 + 2^-11 + 2^-30 becomes 1 instead of 1 + 2^-10 |
| C124 | `make_external(a, b::)` and `generate(anything)` are accepted, and an input without `generate()` gives no code and no error; the proved language says so |
| C125 | `--external-package` with any accepted value panics: it is parsed to `ExternalPackage` and read as `String` |
| C125 | `a,b,c` is read like `a,b`, and `,` is accepted as two empty names |
| C125 | rustfmt is run without `--rustfmt` too (`contains_id` is true for a flag with a default), so that the program fails where rustfmt is missing |
| C126, C127 | a server that answers a later request first: the client drops the answers to the earlier ones, because their transfer IDs are lower than the last one of the session (serial and UDP) |
| C129 | sealed types that end with 8 or more bits of padding are read without it: `metatransport.can.DataClassic`, `DataFD`, `Manifestation` and `Frame` with a base ID lose their data, `metatransport.udp.Frame` gets a wrong destination |
| C130 | `primitive.array.Bit`, `register.Value` and both types of `register.Access` panic for a length above 2048 |
| C134 | Comments are lost: after `@sealed`/`@extent` of a struct (also those of constants declared there); in a union before its first declaration; in a union of a message or request after `_offset_` was used, until `@sealed`; in a union of a response after `@sealed`. The arms of `handle_comment` for message and response unions differ |
| C135 | `#[canadensis(enum)]` before the first field but after a constant is ignored without an error, and so it is in a union after `@union`; the documentation promises an enum and an error |
| C136 | `optimize_filters 0 …` succeeds and prints no filter, so that none of the IDs is received |
| C137 | `register_client` tells answers apart by the 5-bit transfer ID only: with more than 32 registers and a lost answer a register gets the value of another one. It accepts answers of every node, and a name that is not UTF-8 ends it with success. `next_register_index` overflows after 65535 names |
| C138 | lengths of 2^64 bits and more panic with overflow checks and wrap without them: `uint64[<=2^58] x` compiles and is said to have 64 bits |
| C139 | with two interfaces that both receive all frames, a transfer is lost if after a pause of about the timeout the other interface takes over in its middle; an interface that is further behind than the timeout leads to a second delivery of all transfers |
| C140 | `stop_sending_requests` does not unsubscribe: the node goes on receiving responses for the service, and handlers are given them |
| C141 | the same as C140 over a serial line and over UDP |
| C142 | a node over UDP stays in the group of its ID after stop_sending_requests; a node that gets another ID stays in the group of the former one and does not join that of the new one |
| C143 | `FilterB::two_ids` puts 14 bits of an extended ID into the filter; its documentation says that the 11 most significant must match |
| C146 | `send` takes the first block as one of 8-byte buffers whatever size is configured: with another size what it writes is not a message buffer |

# Formal model of gringo in Lean 4: design

The code under study is `/repo` (package `github.com/dblokhin/gringo`, Go). The model is in `lean/Verif`.
Nothing here runs the Go code: the tie between code and model is the citation on every definition, plus the
repository's own test vectors, replayed against the model by the kernel (`lean/Verif/Vectors`).

Contents: [layout](#layout), [modelling decisions](#modelling-decisions), [plan per property](#plan-per-property),
[theorems per property](#theorems-per-property), [what is false of the code](#what-is-false-of-the-code),
[what is modelled](#what-is-modelled-file-by-file), [trusted base](#trusted-base),
[tests of the theorems](#tests-of-the-theorems).

## Layout

| directory | content |
|---|---|
| `lean/Verif/Go/` | the part of Go and its standard library the code uses: outcomes (`ok`, `err`, `panic`, `fatal`), byte streams with EOF, `io.ReadFull`, `io.LimitReader`, `encoding/binary`, `bytes.Compare`, `sort`, `time`, `make`, `bufio.Writer`, the text form of addresses in `net` |
| `lean/Verif/Model/` | the model of the code, function by function, each definition citing file and lines |
| `lean/Verif/Concrete/` | executable BLAKE2b-256, SHA-256, SipHash and secp256k1: the parameters of the model filled in with the real functions (`Concrete.env`) |
| `lean/Verif/Spec/` | small specifications that use the data types of the model but none of its functions: well-formed values, frames, "simple cycle", value formulas, assumptions about external code, the answer relation of a session. `Toy.lean`: an environment that meets all assumptions and is cheap to evaluate |
| `lean/Verif/Curve/` | proof that secp256k1 as in `Concrete.env` is a lawful curve: primality of `p` and `N` by Pratt certificates, the group by Mathlib's Weierstrass curves, the order of the generator |
| `lean/Verif/Proofs/` | helper lemmas |
| `lean/Verif/Props/` | the property theorems, one file per area, with an `example` beside each showing that a concrete case meets its hypotheses (files `…Witness.lean` hold the longer ones) |
| `lean/Verif/Vectors/` | the test vectors of the repository, evaluated by the kernel in `Concrete.env` |

## Modelling decisions

* **Outcomes.** A Go call ends in one of: a value, an `error` (with its text), a run-time `panic`,
  or `logrus.Fatal` (process exit). All four are explicit (`Out`). Blocking forever is explicit in the
  concurrency models.
* **Streams.** An `io.Reader` is the finite list of bytes the other side sends before the stream ends.
  A decoder (`Rd α`) maps it to an outcome and the bytes left. Bytes consumed by a failing read are
  consumed in the model too.
* **Integers** have Go's widths (`UInt8`..`UInt64` wrap as in Go). `int`, `int64` and `time.Duration` are
  `Int` with explicit wrap-around where it can matter.
* **Slices** are lists. `nil` and empty are identified except where the code distinguishes them
  (`GetBlock(nil)`), where an `Option` is used. Aliasing is only relevant for the in-place sorts in
  `Bytes()`, which are modelled by returning the receiver's new value.
* **Memory.** `make` takes the element count and size and panics above a limit that is a parameter of
  the model. "Never allocates more than B at once" is then "never panics when the limit is at least B".
* **External code is a parameter** (`Env`): BLAKE2b, SipHash of `dchest`, SHA-256, the curve and
  bulletproof library, the clock, `sort.Sort` (any function returning a sorted permutation), DNS
  resolution, the storage backend. What is assumed of a parameter is a named `structure … : Prop`
  hypothesis in the theorem statement (`Spec/Assumptions.lean`, `Spec/Curve.lean`). `Toy.env` and
  `Concrete.env` are proved to meet them.
* **Concurrency** (the goroutines of a peer, `Model/Lifecycle`; the pool with all its connections and callers,
  `Model/PoolRun`) is a transition relation over explicit atomic steps with any number of threads; theorems
  quantify over all reachable states and all schedules. One step is one access to shared state or a group of
  accesses under one lock; the simplifications are listed at the head of each file. That a group under one lock may be
  one step is justified by `C136_maps` and `C137_sections_partial`, proved of the finer model `Model/Locks`.
* **Message handling** (`Model/Sync`) is a function from a node, the world it sees and a message to the new node
  and its effects; a connection (`Model/Connect.converse`) alternates reading a frame, handling it, and arbitrary
  changes of the node by other connections.

## What to do when the code violates a property

The property list states what a user relies on. Many of these are false of the code. In that case
the theorem file contains (a) a refutation, as general as possible, and (b) a theorem ending in `_partial` that
states what does hold. The manifest marks such a property `partial`.

## Plan per property

| id | model | proof |
|---|---|---|
| C01 | `Header` codec | round-trip by computation on big-endian lemmas; acceptance as an iff on the raw bytes |
| C02 | control message codecs | round-trip lemmas |
| C03 | `WriteMessage`, `ReadMessage` over an abstract message | composition of header lemma and limit-reader lemma |
| C04 | same | case analysis on the raw header bytes |
| C05 | same | limit-reader lemma: the leftover contains the untouched tail |
| C06 | same | false: a decoder that leaves bytes; exact condition proved |
| C07-C09 | `readHandler` as a function of the byte stream | induction on frames / on stream length |
| C10, C11 | `Proof` bit packing, bit by bit as in the code | bit-level characterisation of both loops; canonicity refuted, exact condition proved |
| C12, C13 | header codec, `Validate`, `Hash` | round-trip; decoded sizes imply no `Fatal` branch |
| C14-C16 | block codec with in-place sort | round-trip by induction on lists; uniqueness of sorted permutations |
| C17, C18 | transaction codec | refuted for any transaction with inputs; proved without; sortedness |
| C19 | compact block codec | proved up to 255 entries; refuted beyond |
| C20-C23 | locator, headers, addresses, hand/shake codecs | round-trip; IPv6 refuted for all addresses |
| C24-C26 | the two handshake functions, nonce table | C24 refuted for every hand; C25 refuted; C26 invariant over histories |
| C27 | `make` with a limit | no panic over all streams for the bounded decoders; panicking stream for the unbounded ones |
| C28 | element codecs | round-trip |
| C29 | `ValidateBlockVersion` | decision logic |
| C30-C34 | header and block validation | iff with a specification; C31, C33, C34 refuted in general form |
| C35-C38 | difficulty arithmetic with wrap-around | closed form of the loop, then arithmetic |
| C39 | `ShortID` | computation |
| C40-C43 | `findCycleLength` as the loop it is, used flags included | walk invariant; completeness and exact soundness relative to a graph specification |
| C44, C45 | node/edge derivation, `siphashBlock` loop | bit arithmetic; loop invariant |
| C46-C53 | `Chain` over an abstract storage | decision logic; induction over call histories |
| C54-C64 | pool and `ProcessMessage` | invariants over operation histories |
| C65-C68 | peer goroutines as a transition system | invariants, progress and a termination measure |
| C69-C74 | Schnorr/Pedersen over a lawful curve; secp256k1 as an instance | group algebra; the instance by certificates |
| C75, C76 | node of `cmd/node` | case analysis over all messages; refuted for three kinds; what survives is stated |
| C57, C58, C77-C80 | run loop of the pool, connections, `Ban`, `Stop`, closing goroutines as a transition system | inductive invariants; schedules as witnesses for the refutations |
| C81, C82 | `Send…` methods, framing and the read loop of the other side | composition of the codec theorems with C07; C68 for the schedules of the sender |
| C83-C91 | `Block.Validate`, `ProcessBlock`, `ProcessHeaders` | what acceptance implies (from C32, C47, C52); general constructions of accepted blocks that break the property |
| C92-C94 | `NewPeer`, `AcceptNewPeer` | composition of handshake and read loop |
| C95, C96 | `converse`: read loop with message handling, other connections acting in between | induction over the stream with an answer relation; invariants over histories |
| C97 | C82, C95 and C81 in a row | composition |
| C98, C99 | `Block.Validate`, `Block.Bytes`, message limit | counting bytes |
| C100 | `bufio.Writer`, `Header.Write`, `WriteMessage` and the write loop on a connection that takes `k` bytes | invariant of the buffered writer (`Handed`), then C08 on the cut stream |
| C101 | `Block.Bytes` run by several goroutines on one block, element loads and stores as atomic steps, `sort.Sort` as any tree of `Less` and `Swap` calls | refuted by a schedule that overlaps the first swap, for every algorithm and unsorted block; for sorted blocks an invariant over all schedules |
| C102 | the genesis blocks, `Validate` | cases over the five networks; refuted for all of them, whatever the clock |
| C103 | the life cycle model of a peer (C65, C66) under a remote that takes no bytes | refuted by an invariant of stalled states over every further run; cases of the write handler for what a caller can wait for; C66 for the release |
| C104 | `processMessage` repeated on one block, relay targets | refuted by induction on the number of copies; the targets have no duplicates by the pool invariant (C77) |
| C105 | the pool with its goroutines (`Model/PoolRun`) when one remote accepts the connection and says nothing | refuted by an invariant (`Quiet`) of all states after the greeting; the moves that remain enabled while every remote answers |
| C106 | `ProcessMessage` for `PeerAddrs`, `Add`, `Peers`, `TCPAddr.String` and `net.ResolveTCPAddr` on literals | decimal text is read back (induction on digits), so writing then resolving is the identity; then the pool functions |
| C107 | every history of the shipped node's pool with the addresses the wire can carry | invariant: every key is a literal IPv4 address and port; refuted by the unspecified address |
| C108 | the `String` methods of hashes, short ids, commitments and features, `encoding/hex`, `%032x` | a reader of hexadecimal text inverts the printer by induction; refuted for hashes under 16 bytes |
| C109 | the table entries in the pool with its goroutines (`Model/PoolRun`) | cases over every step for what it changes in an entry, then induction over histories |
| C110 | histories of `ProcessMessage` (C96) with what they send | refuted for every node and history by induction; that nothing falls follows |
| C111 | `SendPing`, the frame on the wire, both nodes' `ProcessMessage` | refuted for every state but height 1 and difficulty 1 by composing C82 and C60; the pong half from C97 and C60 |
| C112 | `Chain.ProcessBlock`, `ProcessHeaders` on decoded blocks | exactly when it crashes, by following the calls: only the division in `FromHash` is left, for a parent whose proof has a hash with eight leading zero bytes; a hash function and a block for which it happens |
| C113 | the frames of `shakeByHand` and `handByShake`, and the node that `main` builds | the bytes that are sent, in closed form; refuted for the shipped node, which is on Testnet1 and announces Testnet4 |
| C114 | `Commitment.Bytes` and `Commitment.Read`, with the receiver as an argument | by unfolding, for receivers of the same length; refuted for a fresh receiver, into which nothing is read and no error is reported |
| C115 | `PropagateBlock` with its goroutines, one step per read of the record, beside every step of the running pool | invariant over all runs: one goroutine per address of the call, a known address has a record with a connection, a connection has one address; the run in which nothing else happens gives `relayTargets` |
| C116 | the same model; runs during which the record stays behind | by induction over the run if the same number stays behind; refuted by a peer that tells twice between the two reads |
| C117 | `SignMessage`, `VerifySignature`, with the bytes hashed spelled out from the coordinates | group laws; accepted if and only if the equation holds up to sign; refuted by the opposite number, which is accepted too; also on secp256k1 with the assumption about the curve discharged |
| C118 | the goroutines of one peer (`Model/Lifecycle`) after a call of `WaitForDisconnect` has returned | refuted by a schedule in which the handlers end between `close(quit)` and `conn.Close()`; an invariant for the rest: nothing is read, handled or written any more, and closing the socket is the next step of whoever disconnects |
| C119 | the pool with, for every connection, the goroutines of `Model/Lifecycle` (`Model/Whole`) | an invariant of every connection over all runs of the composed model. The composed model is shown to refine `Model/PoolRun` by a simulation (`refines` in `Proofs/Whole`), through which C57, C64, C78, C79 and C80 carry over to it |
| C120 | the goroutines of one peer, `Model/Lifecycle` | a measure of what the write handler has left to write, which falls at each of its moves, over all runs in which the peer keeps serving; enabledness of its moves in every reachable state |
| C121 | the pool with the goroutines of every connection, `Model/Whole` | a measure of what is left to do for the connection, which no step adds to but calls from outside; in every reachable state in which the place was not given back, a step of this process that lowers it. False when the read loop bans its own peer (C80); for what the goroutines of `Stop` do, see C131 |
| C122 | one connection with the bytes that arrive and the bytes that are written, `Model/Talk` (goroutines of `Model/Lifecycle`, decoding of `Model/Peer`, handling of `Model/Sync`, serialisation of `Model/Send`) | invariants over all steps: what arrived is good frames and the unread rest; their messages are the answered ones and at most one more; the answers are those accepted and at most one more; the wire is the frames of the accepted messages and a part of one |
| C123 | `Model/Talk`, with who makes each step happen | a measure: what is left to read, handle and call, then what is left to write of the message at hand, decreases lexicographically with every step of the process and every byte taken, so no infinite run; in a state without such a step the positions of the goroutines are known, and the invariants of C122 leave nothing open |
| C124 | the whole program: the pool and the goroutines of every connection (`Model/Whole`), the bytes that come in on each, and the handling of messages on the one node they share (`Model/Program`) | every step is shown to be steps of `Model/Whole`, and of `Model/Talk` for every connection, so that C122 holds of every connection; a further invariant follows the two opening messages from the loop of the pool to the wire, and every relayed block back to the connection it came in on |
| C125 | as C124, with the goroutines of `PropagateBlock` read by read | counting invariant: what was handed to a connection is what the goroutines that ended in sending to it carried; those all have its address; for one address there are no more goroutines than blocks handled; what was handled is a sublist of what came in |
| C126 | as C125, with runs on which the record of an address stays behind | invariant along the run: there is a goroutine for the address and the block that has not given the address up, or its connection was handed the block; every goroutine that has not ended has an enabled step |
| C127 | `Model/Program` with each step marked as that of this process, of the other side or of a caller; at rest = no step of this process and no byte taken | a lexicographic measure over all connections, goroutines, unread bytes and the turn of the loop; at rest, for every goroutine that could be anywhere, its enabled step; `Quiet` gives a state at rest |
| C128 | `Model/Full`: `Model/Program` with, for every connection, the bytes of its hand, how many of them were written, all bytes that came in and the shake that was read; the nonces | an invariant over all steps: the program without its handshakes is one of `Model/Program`, the shake and what the read handler gets are what came in, and every entry of the table was told; a handshake as a lexicographic component before the measure of C127 |
| C129 | `Model/Full` from the chain of Testnet1, with `Add` of IPv4 addresses as the only calls from outside, and with the resolver of `Go/Net` | false of the code: three families of bytes that end the process from every state that waits for them, and a fourth (blocks and headers that are not accepted) that may do so while a message is being written to the peer; otherwise an invariant over all steps (nobody banned, nothing closing, every message handed over can be serialised, every address in the table is written as it resolves) that holds until what came in on some connection is trouble; that polite peers are no trouble, by parsing back |
| C130 | two runs of `Model/Full` with the same chain and storage, everything else different | from what each run is known to do (C124, C127, C128): the bytes determine the shake and the frames (`Isolation.arrived`, `frames_agree`), the messages determine the answers up to lists of addresses (`Isolation.answers_det`) |
| C131 | `Model/Program`, `HeldByStop` in `Spec/ProgramRest` | at rest (as in C127) with the loop stopped: the goroutines of `Stop` are followed call by call (`Proofs/Closers`: each is the only one of its address and its call is on the connection of the entry), what each may wait for is a read loop in `Ban` or one that needs the same lock. The second is a deadlock: `Jam` is kept by every step, and from every state in which a ping, pong or block was just read a run of `Stop` leads into it |
| C132 | `Model/Program`, `waiting` in `Spec/Pile` | the upper bound: what waits is a call of `connectPeer` (at most one) or a block handed over by a relay, and these are counted as in C125. False without the dependence on other peers: from every state in which a peer has stopped reading in the middle of a message, by induction on the number of blocks that come in on another connection (`feed`: one more block, one more goroutine) |
| C133 | `Model/Full` with `sqlStorage`, `wireLength` in `Spec/Traffic` | the bytes of a connection are those of the hand and of the messages of C122: the two of the beginning (C124), relayed blocks, counted as in C125, and the answers, by induction on the handled messages (`Answered`); the dearest is a request for addresses, 15 bytes for at most 2831 |
| C134 | `Model/Gossip`: any number of nodes, each with `ProcessMessage` and the goroutines of `PropagateBlock`, and copies of one block on their way between them | without cycles: each copy has a route that does not turn back, because the record of the peer it came from is at the block before any goroutine looks at it; two goroutines for the same copy and peer do not exist; in a forest such a route is the only one to its end (Mathlib's `IsAcyclic.isPath_iff_isChain`), so no node is reached twice; false with cycles: round a ring nobody hears from the next node, so the block goes round for ever |
| C135 | `Model/Gossip`, any connections | an invariant over runs without losses (`Cov`): a node that has got the block has a goroutine for every neighbour; one that ended without sending found in the record that the block came from there, and records are only raised by blocks that came; at rest, by induction on the way from the first node. That the nodes come to rest: a measure (`todo`) that each step lowers, but for the boundedly many deliveries of C134. False for nodes that are not at the height of the block: nothing is relayed |
| C136 | `Model/Locks`: every function as the locks, accesses and `go` statements it does, in order, with values left out; any number of goroutines | a derivation per function (`Typed`) of which locks are held at each place, and an invariant over runs (`Inv`): a goroutine has exactly the locks its place says |
| C137 | the same | false: a schedule per field (`C137_refuted`). `_partial`: which fields have no race, and which have only one writer at a time |
| C138 | the same; waiting for anything but a lock (a channel, `Peer.Close`) is C66, C67, C79, C105 | the derivations keep an order of the locks (`rank`); along a row of goroutines that wait for each other it rises |
| C139 | `Model/GoSyntax`: `%#v` for structs, unsigned numbers, slices and pointers | the text of a number ends where its digits end, that of a slice at its brace; by induction over the elements. False for Pong, which prints as a Ping, and for lists of addresses, which print as pointers |
| C140 | `Model/PoolRun`; `Spec/Dial` counts dials, addresses that come to be waiting, and attempts that leave no trace | every dial uses up a waiting address: the number of waiting addresses, less the one being tried, is a potential. False without the other terms: runs of any length in which one address is dialled and the other is not |
| C141 | `Go/Net`: `ResolveTCPAddr` for literals; `Model/Pool.add`, histories of messages | the reading functions accept exactly the texts of an independent description, by induction over the digits; texts that the node writes itself are read back, so different ones are different addresses. False of `Add`: zeros before the port |
| C142 | the exchange of C97, `Model/Chain` `getBlockHeaders`, `getBlock`, `getBlockID`, `new` | a client as an inductive relation over what requests bring; induction over the blocks that are left, 512 at a time; the relation is a function, so nothing else can come. False when the storage has grown since the start, and of the storage that exists |
| C143 | the pool of `Model/PoolRun` with the texts of `Go/Net` | different texts of the written form are different addresses (C141) and a text has one connection (C78). False of the code: a schedule that connects to any fifteen admissible texts, by induction over them; then no schedule dials another address while they stay, from the invariant about places |
| C144 | starting is `Chain.new`, `mainNode` and `Pool.new`, from what a storage holds at that time | the chain and the storage of a node do not change under any history of messages or calls (invariants), so the started node has the head it had. False of the code: accepted blocks, learned addresses and bans are only in memory, for every history; a schedule of the pool in which a banned address is not dialled any more before the restart and is dialled after it |
| C145 | `Add` and `ProcessMessage` for lists of addresses, with the texts of `Go/Net` | induction over the list: each admissible address is in the table afterwards or the table is full. False of the code: entries are never removed, so a full table has the same addresses after every history (induction), and after every history any known peer can fill it with forty messages about one host: 10001 different texts are in the table or it is full |
| C146 | the goroutines of `PropagateBlock` (`Model/Relay`) | induction over runs: when the goroutines of a call have ended, its block is not sent any more and the blocks of later calls are not sent yet. False of the code: after every history, for every connected peer that is behind both blocks, the second one can be handed to the connection before the first one |
| C147 | `Validate` and `ProcessBlock` | False of the code: to every valid accepted block an input can be added that spends any output of any block, its parent's coinbase output included. What holds: there is at most one such output in a block, and the input that spends it carries the flag |
| C148 | `Validate` and `ProcessBlock` | False of the code: to every valid accepted block any output of any valid block can be added any number of times without its coinbase flag. What holds: two outputs with the same commitment are not both coinbase outputs |
| C149 | The whole program at the level of bytes (`Program`, `Full`) and `processMessage` | False of the code: in no reachable state has any connection been sent a transaction (or a request for headers or blocks). What holds: a transaction from a known peer goes to the pool of transactions; if taken nothing else changes, if refused the sender is banned, and nothing is sent |
| C150 | The whole program at the level of bytes (`Program`), `readHandler` | False of the code: in every reachable state what was written on a connection is the beginning of a sequence of frames of types 3 to 6, 9 and 11, so never an error (0) or the reason of a ban (18). What holds: a peer that sends such a frame is disconnected; what it sent before is handed on, the frame is not |
| C151 | The whole program at the level of bytes (`Program`) | Induction over the run: every step of the program keeps a connection in use, except a ban, a call of `Close` by `Stop`, and a step of the remote side in which a handler of this connection gives up. There is no deadline and no second ping in the code, so a peer that falls silent keeps its place |
| C152 | The whole program at the level of bytes (`Program`) | False of the code, from C151 and C124: in every run without a ban, without `Stop` and in which the remote side does not end the connection, however long and however silent, the connection stays in use and gets at most one ping. What holds: whenever the loop of the pool is between two connections, every connection that was not disconnected was sent exactly one ping |

No property of the list was found to be inexpressible.

## Theorems per property

| id | title | status | theorems (`Gringo.Props`) |
|---|---|---|---|
| C01 | Frame header round-trip and magic check | proved | `C01_header_roundtrip`, `C01_accepts_iff`, `C01_decoded` |
| C02 | Fixed-layout control messages round-trip | proved | `C02_ping`, `C02_pong`, `C02_get_peer_addrs`, `C02_get_block`, `C02_peer_error` |
| C03 | WriteMessage / ReadMessage round-trip | proved | `C03_roundtrip` |
| C04 | ReadMessage refuses foreign and oversized frames | proved | `C04_refuses` |
| C05 | ReadMessage never reads past its frame | proved | `C05_within_frame` |
| C06 | Frame leftovers do not desynchronise the connection | partial | `C06_position_partial`, `C06_refuted` |
| C07 | Peer read loop splits the stream exactly at frame boundaries | proved | `C07_exact_split`, `C07_frames_first`, `C07_interrupted` |
| C08 | Peer read loop stops at the first bad frame | proved | `C08_stops_at_fault`, `C08_only_faults` |
| C09 | Read loop is causal | proved | `C09_causal`, `C09_bound`, `C09_enough`, `C09_disconnected` |
| C10 | Proof-of-work nonces bit-pack losslessly | proved | `C10_pow_roundtrip` |
| C11 | Proof-of-work decoding is canonical | partial | `C11_canonical_partial`, `C11_canonical_sizes_partial`, `C11_refuted` |
| C12 | Block header round-trip | proved | `C12_header_roundtrip`, `C12_header_refused_iff` |
| C13 | Decoded headers can be processed safely | proved | `C13_decoded_shape`, `C13_decoded_safe` |
| C14 | Full block round-trip | proved | `C14_block_roundtrip` |
| C15 | Block serialisation is canonical | proved | `C15_canonical`, `C15_side_effect`, `C15_idempotent` |
| C16 | Block decoder enforces count limits | proved | `C16_block_limits`, `C16_tx_limits`, `C16_decoded_counts` |
| C17 | Transaction round-trip | partial | `C17_no_inputs_partial`, `C17_refuted` |
| C18 | Transactions accepted from the wire are sorted | proved | `C18_tx_sorted` |
| C19 | Compact block round-trip | partial | `C19_compact_roundtrip_partial`, `C19_refuted` |
| C20 | Locator round-trip and limit | proved | `C20_locator_roundtrip`, `C20_locator_decoded`, `C20_locator_fatal` |
| C21 | Header list round-trip and limit | proved | `C21_headers_roundtrip`, `C21_headers_limit` |
| C22 | Peer address round-trip | partial | `C22_ipv4_partial`, `C22_mapped_partial`, `C22_list_partial`, `C22_decoded`, `C22_refuted`, `C22_refuted_list` |
| C23 | Handshake messages round-trip and gate the version | proved | `C23_hand_roundtrip`, `C23_shake_roundtrip`, `C23_hand_gate`, `C23_shake_gate` |
| C24 | Two nodes complete the handshake | partial | `C24_hand_accepted_partial`, `C24_refuted`, `C24_refuted_pair` |
| C25 | Handshake refuses peers on another chain | partial | `C25_no_genesis_partial`, `C25_refuted_accept`, `C25_refuted_connect` |
| C26 | Self-connection detection | proved | `C26_history`, `C26_self_connection`, `C26_own_hand`, `C26_cycle` |
| C27 | Decoders do not panic or over-allocate | partial | `C27_decoders_partial`, `C27_refuted_shake`, `C27_refuted_hand`, `C27_refuted_peer_error`, `C27_refuted_compact`, `C27_refuted_remote_hand`, `C27_refuted_remote_compact` |
| C28 | Kernel, input and output codecs | proved | `C28_input`, `C28_kernel`, `C28_output`, `C28_output_too_long` |
| C29 | Block version schedule | proved | `C29_version_schedule`, `C29_no_version_after` |
| C30 | Header validation rule | proved | `C30_header_rule` |
| C31 | Blocks from the far future are refused | partial | `C31_future_partial`, `C31_refuted`, `C31_far_future_accepted`, `C31_decoded_time` |
| C32 | Block validation rule | proved | `C32_block_rule`, `C32_real_block` |
| C33 | Every kernel of a valid block is signed | partial | `C33_coinbase_signed_partial`, `C33_refuted` |
| C34 | No duplicate inputs in a valid block | partial | `C34_coinbase_once_partial`, `C34_refuted`, `C34_inputs_unchecked` |
| C35 | Difficulty adjustment value | proved | `C35_next_difficulty`, `C35_exact` |
| C36 | Difficulty adjustment reacts to block times | partial | `C36_monotone_partial`, `C36_refuted` |
| C37 | Difficulty adjustment works on any longer history | partial | `C37_window_partial`, `C37_refuted` |
| C38 | Difficulty of a hash | partial | `C38_from_hash_partial`, `C38_refuted_zero`, `C38_refuted_large` |
| C39 | Short ids | proved | `C39_short_id` |
| C40 | Cuckoo verifiers refuse malformed nonce lists | proved | `C40_cuckaroo`, `C40_cuckoo` |
| C41 | Cycle check terminates | proved | `C41_terminates`, `C41_fuel` |
| C42 | Cycle check accepts every cycle | proved | `C42_accepts_cycles` |
| C43 | Cycle check accepts only cycles | partial | `C43_sound_partial`, `C43_verify_partial`, `C43_refuted`, `C43_refuted_verify` |
| C44 | Edge endpoints are in range and in the right partition | proved | `C44_cuckoo`, `C44_cuckaroo`, `C44_cuckoo_edge`, `C44_cuckaroo_edge` |
| C45 | Block SipHash | proved | `C45_siphash24`, `C45_siphash_block` |
| C46 | Chain getters agree for all histories | proved | `C46_getters_agree` |
| C47 | ProcessBlock acceptance rule | proved | `C47_accept_rule`, `C47_later_seconds` |
| C48 | A valid block from a peer that extends a stored block is accepted | partial | `C48_refuted`, `C48_refuted_list`, `C48_real_block`, `C48_unknown_parent_partial` |
| C49 | Accepted blocks become the new head | partial | `C49_refuted`, `C49_tip_partial` |
| C50 | GetBlockHeaders answer | proved | `C50_answer`, `C50_limit`, `C50_following` |
| C51 | Chain.Validate finds invalid blocks | partial | `C51_refuted_misses`, `C51_refuted_diverges`, `C51_refuted_fresh`, `C51_error_partial`, `C51_terminates_partial` |
| C52 | ProcessHeaders is all-or-nothing | proved | `C52_process_headers` |
| C53 | Genesis hashes identify their chains | partial | `C53_refuted_hash`, `C53_refuted_bytes`, `C53_distinct_partial` |
| C54 | Peers answer filter | partial | `C54_peers`, `C54_serialisable_partial`, `C54_refuted` |
| C55 | Peer table is bounded and stable under Add | partial | `C55_add`, `C55_histories_partial`, `C55_refuted` |
| C56 | Banning takes effect | partial | `C56_refuted`, `C56_refuted_how`, `C56_refuted_run`, `C56_marks_partial` |
| C57 | Outgoing connections are capped | partial | `C57_partial`, `C57_refuted`, `C57_refuted_closing`, `C57_goroutines_partial` |
| C58 | Connection slots are not lost | partial | `C58_partial`, `C58_counter`, `C58_dead`, `C58_refuted`, `C58_refuted_race` |
| C59 | Choice of the next peer to dial | proved | `C59_choice` |
| C60 | Ping is answered with our chain state | proved | `C60_ping`, `C60_pong` |
| C61 | Only valid blocks are relayed | partial | `C61_refuted`, `C61_known_remote_partial`, `C61_only_blocks`, `C61_program_partial` |
| C62 | Block relay targets | proved | `C62_targets`, `C62_once`, `C62_pool` |
| C63 | Recorded peer state never goes backwards on blocks | partial | `C63_refuted`, `C63_partial` |
| C64 | A known peer's message never hits the fatal path | proved | `C64_not_fatal`, `C64_kept`, `C64_goroutines` |
| C65 | Quit channel closed once | proved | `C65_at_most_once`, `C65_exactly_once`, `returned_flag` |
| C66 | Disconnect completes | proved | `C66_completes`, `C66_by_other` |
| C67 | Banning a peer from its own read loop completes | partial | `C67_refuted`, `C67_reached`, `C67_refuted_run`, `C67_lost_race_partial` |
| C68 | Outgoing messages are sent in order, at most once | proved | `C68_order`, `C68_received` |
| C69 | Schnorr signatures verify | proved | `C69_sign_verify`, `C69_secp256k1` |
| C70 | Signatures are not malleable | partial | `C70_unique_up_to_sign_partial`, `C70_refuted`, `C70_secp256k1_partial`, `C70_secp256k1_refuted` |
| C71 | Serialised signatures verify | partial | `C71_serialised_partial`, `C71_refuted`, `C71_secp256k1`, `C71_half`, `C71_secp256k1_refuted` |
| C72 | Signed kernel message is injective | proved | `C72_message_injective`, `C72_message_length`, `C72_challenge_injective`, `C72_secp256k1` |
| C73 | Commitments are homomorphic | proved | `C73_homomorphic`, `C73_homomorphic_mod`, `C73_zero_value`, `C73_secp256k1` |
| C74 | RandomInt stays in the scalar range | partial | `C74_bound_partial`, `C74_refuted`, `C74_first` |
| C75 | The node never crashes on a peer's message | partial | `C75_refuted`, `C75_refuted_transaction`, `C75_refuted_ban`, `C75_survives_partial`, `main_like`, `likeMain_preserved` |
| C76 | A block is not sent back to its sender | proved | `C76_no_echo` |
| C77 | Blocks are relayed to every open connection | partial | `C77_partial`, `C77_refuted` |
| C78 | One connection per address | partial | `C78_refuted`, `C78_one_connection_partial`, `C78_goroutines_partial` |
| C79 | Stop shuts the pool down | partial | `C79_closed_partial`, `C79_waits_partial`, `C79_sockets_partial`, `C79_goroutines_partial`, `C79_refuted_twice`, `C79_refuted_panic`, `C79_refuted_deadlock` |
| C80 | A banned peer is not dialled again | partial | `C80_banned_partial`, `C80_refuted`, `C67_refuted_run`, `C80_goroutines_partial` |
| C81 | Messages arrive as sent | partial | `C81_delivered_partial`, `C81_prefix_partial`, `C81_refuted`, `C81_refuted_ipv6`, `longBlock_long` |
| C82 | Requests reach the peer as made | partial | `C82_queued`, `C82_arrives`, `C82_refuted` |
| C83 | A header commits to its block | partial | `C83_header_fields_partial`, `C83_refuted` |
| C84 | No money from nothing | partial | `C84_range_partial`, `C84_add_outputs`, `C84_refuted` |
| C85 | Lock heights are respected | partial | `C85_signed_partial`, `C85_refuted`, `C85_refuted_locked` |
| C86 | Only valid blocks are accepted | partial | `C86_valid_partial`, `C86_refuted`, `C86_refuted_wire` |
| C87 | Exactly one coinbase | partial | `C87_at_most_one_partial`, `C87_refuted` |
| C88 | Accepted blocks link to their parent | partial | `C88_linked_partial`, `C88_refuted` |
| C89 | Accepted headers form a chain | partial | `C89_each_valid_partial`, `C89_refuted`, `C89_refuted_twice` |
| C90 | Inputs spend existing outputs | partial | `C90_order_partial`, `C90_refuted` |
| C91 | Total difficulty grows | partial | `C91_grows_partial`, `C91_refuted` |
| C92 | A new connection starts where the handshake ends | partial | `C92_described`, `C92_nothing_lost_partial`, `C92_refuted` |
| C93 | A failed connection attempt leaves nothing open | partial | `C93_not_dialled_partial`, `C93_refuted`, `C93_refuted_accepting` |
| C94 | An accepted peer is served like a dialled one | partial | `C94_described_partial`, `C94_refuted` |
| C95 | Requests on a connection are answered in order | proved | `C95_answers_in_order`, `C95_all_answered` |
| C96 | Messages only touch the sender's own record | proved | `C96_history` |
| C97 | A request brings the answer back | partial | `C97_exchange_partial`, `C97_block_partial`, `C97_headers`, `C97_ping`, `C97_refuted` |
| C98 | Accepted blocks respect the weight limit | partial | `C98_weight_partial`, `C98_refuted` |
| C99 | Blocks of legal weight can be sent | partial | `C99_size`, `C99_legal_fits_partial`, `C99_refuted` |
| C100 | A connection may break at any byte | proved | `C100_write`, `C100_stream`, `C100_both_ends`, `C100_cut_partial` |
| C101 | A relayed block arrives whole at every peer | partial | `C101_refuted`, `C101_relayed`, `C101_sorted_partial`, `C101_insertion` |
| C102 | A genesis block starts its chain and is valid | partial | `C102_start_partial`, `C102_header`, `C102_refuted` |
| C103 | A call that sends to a peer returns | partial | `C103_refuted`, `C103_unbounded`, `C103_waits_partial`, `C103_freed_partial` |
| C104 | A block is sent to a peer at most once | partial | `C104_refuted`, `C104_one_message_partial` |
| C105 | One silent peer does not stop the pool | partial | `C105_refuted`, `C105_moves_partial`, `C105_refuted_unread` |
| C106 | Addresses told by peers are kept and told on unchanged | proved | `C106_text`, `C106_distinct`, `C106_kept`, `C106_only`, `C106_colon`, `C106_six`, `C106_no_host` |
| C107 | The remote address of a dialled peer is the address it is known by | partial | `C107_literal`, `C107_answers`, `C107_remote_partial`, `C107_relays_partial`, `C107_refuted`, `C107_six_partial` |
| C108 | Printed hashes and ids identify what they print | partial | `Print.C108_ids`, `Print.C108_hash_partial`, `Print.C108_refuted`, `Print.C108_features` |
| C109 | What the pool records about a peer is what the peer told | proved | `C109_shake`, `C109_changes`, `C109_history`, `C109_height_unknown` |
| C110 | A node that hears of more work adopts it | partial | `C110_refuted`, `C110_never_falls_partial` |
| C111 | The two ends of a connection know each other's state | partial | `C111_refuted`, `C111_pong_partial` |
| C112 | Refusing a block is an error, not a crash | partial | `C112_crash_partial`, `C112_headers`, `C112_refuted` |
| C113 | A node describes itself truthfully when it connects | partial | `C113_hand_partial`, `C113_shake_partial`, `C113_refuted` |
| C114 | A serialised commitment can be read back | partial | `C114_same_length_partial`, `C114_keeps_length_partial`, `C114_refuted` |
| C115 | Relaying a block starts one check per connected peer and sends at most once | proved | `C115_once`, `C115_done`, `C115_at_once` |
| C116 | Relaying a block leaves out no peer known to be behind | partial | `C116_refuted`, `C116_stays_behind_partial` |
| C117 | A signature is accepted exactly when the Schnorr equation holds | partial | `C117_made`, `C117_equation_partial`, `C117_refuted`, `C117_secp256k1_made`, `C117_secp256k1_partial` |
| C118 | WaitForDisconnect returns after the end of the connection | partial | `C118_refuted`, `C118_still_partial` |
| C119 | A place in the pool is passed on only after the connection is finished | proved | `C119_finished`, `Gringo.Whole.refines` |
| C120 | An accepted message goes out | proved | `C120_written`, `C120_moves`, `C120_takes` |
| C121 | An ended connection gives its place back | partial | `C121_place_partial`, `C121_run_partial`, `C121_lost_partial`, `C121_refuted`, `C80_goroutines_partial` |
| C122 | A peer sees frames of messages: the answers to its requests in order, and what was sent to it, nothing else | proved | `C122_what_is_written`, `C122_what_is_seen`, `C122_others_ok` |
| C123 | Every complete request gets its answer, and the node comes to rest | proved | `C123_ends`, `C123_at_rest` |
| C124 | What a peer sees of the whole node | proved | `C124_what_a_peer_sees`, `C124_parts` |
| C125 | A node does not multiply blocks | proved | `C125_no_more_than_came_in` |
| C126 | An accepted block reaches every peer that is behind | proved | `C126_sent_on` |
| C127 | The whole node gets done with everything that came in | proved | `C127_ends`, `C127_at_rest`, `C127_block_written` |
| C128 | The whole conversation with a peer, from the first byte | proved | `C128_parts`, `C128_first_bytes`, `C128_conversation`, `C128_record`, `C128_ends`, `C128_handshake_at_rest`, `C128_at_rest` |
| C129 | No peer can end the process | partial | `C129_survives_partial`, `C129_serves_partial`, `C129_no_trouble`, `C129_polite_partial`, `C129_refuted_shake`, `C129_refuted_transaction`, `C129_refuted_compact`, `C129_refuted_ban` |
| C130 | What one peer is answered does not depend on the others | proved | `C130_alike`, `C130_same` |
| C131 | Stop leaves nothing behind | partial | `C131_left_partial`, `C131_for_ever`, `C131_refuted` |
| C132 | What waits for a peer that does not read is bounded | partial | `C132_waiting_partial`, `C132_refuted` |
| C133 | What a peer is sent is in proportion to what came in | proved | `C133_in_proportion` |
| C134 | A relayed block dies out | partial | `C134_acyclic_partial`, `C134_ends_partial`, `C134_rest_partial`, `C134_refuted` |
| C135 | A block reaches every node | partial | `C135_everyone_partial`, `C135_once_partial`, `C135_refuted` |
| C136 | The peer tables survive concurrent use | proved | `C136_maps` |
| C137 | The node has no data races | partial | `C137_fields_partial`, `C137_sections_partial`, `C137_refuted` |
| C138 | The locks do not deadlock | proved | `C138_no_ring`, `C138_given_back` |
| C139 | Printed messages identify themselves | partial | `Print.C139_text_partial`, `Print.C139_refuted` |
| C140 | Every known address is tried | partial | `C140_bound_partial`, `C140_failed`, `C140_refuted`, `C140_refuted_failed`, `C140_refuted_lost` |
| C141 | Every peer is listed once | partial | `C141_text`, `C141_port`, `C141_wire_partial`, `C141_refuted` |
| C142 | A chain can be fetched from a node that has it | partial | `C142_headers_partial`, `C142_blocks_partial`, `C142_lookup`, `C142_refuted`, `C142_refuted_sql` |
| C143 | One host does not take all places | partial | `C143_distinct_partial`, `C143_refuted`, `C143_refuted_wire` |
| C144 | A restart resumes where the node was | partial | `C144_shipped_partial`, `C144_chain_partial`, `C144_refuted_blocks`, `C144_refuted_addresses`, `C144_refuted_bans` |
| C145 | A node goes on learning addresses | partial | `C145_room_partial`, `C145_full`, `C145_refuted` |
| C146 | Blocks are passed on in the order in which they came | partial | `C146_order_partial`, `C146_refuted` |
| C147 | Coinbase outputs are spent only when they are mature | partial | `C147_marked_partial`, `C147_refuted`, `C147_refuted_next` |
| C148 | An output exists once | partial | `C148_coinbase_partial`, `C148_refuted` |
| C149 | Transactions are passed on | partial | `C149_refuted`, `C149_refuted_full`, `C149_taken_partial`, `answers_said` |
| C150 | A peer is told what it did wrong | partial | `C150_refuted`, `C150_heard_partial`, `frame_of_type` |
| C151 | A connection ends only for a reason | proved | `C151` |
| C152 | A peer that no longer answers is noticed | partial | `C152_refuted`, `C152_once_partial` |

## What is false of the code

Every item is a theorem (`…_refuted…`). The notes are those of the manifest.

* **C06** Frame leftovers do not desynchronise the connection: false of the code: body bytes the decoder leaves unread stay in the stream; proved when the decoder consumes the body
* **C11** Proof-of-work decoding is canonical: False of the code; exact condition, the sizes for which it holds and refutation for all others proved.
* **C17** Transaction round-trip: False of the code for every transaction with inputs (feature bytes not written); proved without inputs.
* **C19** Compact block round-trip: Holds up to 255 outputs and kernels; refuted beyond (one-byte counts).
* **C22** Peer address round-trip: IPv4 proved; false of the code for every genuine IPv6 address
* **C24** Two nodes complete the handshake: false of the code: the shake carries no genesis hash; the hand half holds
* **C25** Handshake refuses peers on another chain: false of the code: the genesis hash is never compared; only its presence and the version are enforced
* **C27** Decoders do not panic or over-allocate: False of the code for the messages named in the refutations (unbounded make); proved for the other decoders.
* **C31** Blocks from the far future are refused: False for the 62135596800 largest time stamps (wrap-around); proved below them.
* **C33** Every kernel of a valid block is signed: False: only coinbase kernels are checked.
* **C34** No duplicate inputs in a valid block: False: IsSorted admits repetition; only the coinbase output and kernel are unique.
* **C36** Difficulty adjustment reacts to block times: UpperTimeBound and LowerTimeBound are swapped in effect: the clamp always picks one value, so the result does not depend on block times. Refuted in general form; weak monotonicity holds.
* **C37** Difficulty adjustment works on any longer history: Holds for exactly 71 blocks; false for any longer list.
* **C38** Difficulty of a hash: Formula and monotonicity for a non-zero prefix; zero prefix panics, large prefixes give 0.
* **C43** Cycle check accepts only cycles: Holds when no endpoint is shared by more than two edges; false in general, with a 42-nonce witness for Cuckaroo.Verify.
* **C48** A valid block from a peer that extends a stored block is accepted: False of the code: Difficulty is not on the wire, so every wire block that extends a stored one is rejected.
* **C49** Accepted blocks become the new head: False of the code: ProcessBlock never applies a block.
* **C51** Chain.Validate finds invalid blocks: False of the code: the loop stops at the first valid block, and need not end.
* **C53** Genesis hashes identify their chains: False of the code for Testnet1, Testnet2 and Mainnet (same hash) and for serialisation; the other pairs of hashes differ.
* **C54** Peers answer filter: The filter is proved. That the answer can always be serialised is false: an address without host part ends the process.
* **C55** Peer table is bounded and stable under Add: All but the bound: 10001 entries instead of 10000.
* **C56** Banning takes effect: False of the code: Ban of a known address never returns. C56_refuted_how says how it ends in every case, C56_refuted_run in the running pool.
* **C57** Outgoing connections are capped: Refuted as stated: connections whose handshake fails are never closed (C57_refuted), and slots are given back before the socket is closed (C57_refuted_closing). Proved: at most 15 connections with a successful handshake that nobody has begun to close, also counting those whose goroutines have not ended.
* **C58** Connection slots are not lost: Refuted as stated, twice: a turn with nothing to dial keeps its slot for ever, after 15 of them the pool never dials; and lost updates of the unsynchronised counter can leave the pool with one connection and no further dialling. Proved: with room left, and the counter intact or no connection left, the loop dials a dialable entry in its next steps; the counter never exceeds 16.
* **C61** Only valid blocks are relayed: Refuted: a rejected block is relayed when the remote address is not a table key. Holds when it is one; also in the whole program, over all runs, when every remote address is the one dialled.
* **C63** Recorded peer state never goes backwards on blocks: Refuted: a block higher in one of height and total difficulty lowers the other. Holds when they compare the same way.
* **C67** Banning a peer from its own read loop completes: Refuted: the handler waits for itself forever. Holds when somebody else has started to disconnect before.
* **C70** Signatures are not malleable: False: (R, N-s) and (R, s+N) also verify; these are the only ones for a given R.
* **C71** Serialised signatures verify: True exactly when the nonce point has the ordinate that ModSqrtFast returns; of two opposite nonces exactly one has it.
* **C74** RandomInt stays in the scalar range: The group order itself can be returned.
* **C75** The node never crashes on a peer's message: Refuted: any transaction, and any rejected block or headers from a peer known by its remote address, crashes or hangs the node. Every other message is handled and its answers can be serialised.
* **C77** Blocks are relayed to every open connection: Refuted as stated by a race between the goroutine of an old connection and a reconnect.
* **C78** One connection per address: False of the code: the pool learns of the end of a connection before its socket is closed and may have dialled again (C78_refuted); connections with a failed handshake stay open too (C57_refuted). Proved: at most one connection per address that nobody has begun to close, and no dialling while there is one.
* **C79** Stop shuts the pool down: Refuted as stated in three ways. Proved: when the closing goroutines have ended, every registered connection is closed or being closed, and stays closed; a closing goroutine does not end before the socket it closes is closed; and every connection whose read loop is not in Ban gets over (socket closed, handlers ended, place given back) by steps of this process alone.
* **C80** A banned peer is not dialled again: Refuted as stated: the mark can be overwritten. Proved for a ban by the own handler.
* **C81** Messages arrive as sent: Delivery in order proved for every list of deliverable messages and every schedule of the sender. False for bodies over 20 000 000 bytes (the sender does not check the limit) and for IPv6 addresses; transactions with inputs are excluded (see C17).
* **C82** Requests reach the peer as made: Proved for 32-byte hashes and locators of at most 14 hashes; other arguments crash the sending process.
* **C83** A header commits to its block: The proof of work fixes the transmitted header fields; nothing ties the header to the contents: any two valid blocks can swap them.
* **C84** No money from nothing: Range proofs are checked; sums are not, so for every conceivable balance rule there is an accepted block violating it.
* **C85** Lock heights are respected: Only the coinbase signature covers fee and lock height; a kernel with any lock height can be added to any block.
* **C86** Only valid blocks are accepted: Accepted blocks are valid or have the hash of the tip. Anything with the proof of the tip is accepted, as the hash covers the nonces only; shown also for bytes from the wire.
* **C87** Exactly one coinbase: At most one of each; but none is accepted too, and then no signature is checked.
* **C88** Accepted blocks link to their parent: Holds when the parent is found by hash and height; a block with the wrong height is taken for one with an unknown parent and accepted.
* **C89** Accepted headers form a chain: Each header is valid; links and heights are not looked at.
* **C90** Inputs spend existing outputs: Inputs are only checked to be in order.
* **C91** Total difficulty grows: Grows when the proof difficulty is not 0 and the sum does not overflow; with fifteen of sixteen proofs the difficulty is 0 and the total stays.
* **C92** A new connection starts where the handshake ends: The description holds. Nothing is lost when the shake fills its frame; false of the code when the frame of the shake is longer than the shake: ReadMessage leaves the surplus in the stream.
* **C93** A failed connection attempt leaves nothing open: False of the code: when the handshake fails after the dial, the connection stays open; the same for an accepted connection. Holds when the address does not resolve or nobody answers.
* **C94** An accepted peer is served like a dialled one: False of the code: AcceptNewPeer sets neither the syncer nor the address, so the first message panics. The description by the hand holds.
* **C97** A request brings the answer back: Proved for all requests whose answers can be serialised and fit the message limit; pings and headers without such a condition. False for blocks whose serialisation is longer than 20000000 bytes: the asking node hangs up (C97_refuted).
* **C98** Accepted blocks respect the weight limit: False of the code: the weight is not checked (a TODO in consensus/block.go). Only the list limits of the decoder bound it, by 13000000.
* **C99** Blocks of legal weight can be sent: The exact size is proved. Blocks of legal weight fit when range proofs have at most 2400 bytes; with proofs of 5134 bytes, which the decoder admits, they need not (C99_refuted).
* **C101** A relayed block arrives whole at every peer: Refuted for every unsorted block and every sorting algorithm; an unsorted block that the node rejects does reach several peers (C101_relayed). Holds for blocks in order when the sort makes no swaps on them (insertion sort, used for up to 12 elements).
* **C102** A genesis block starts its chain and is valid: Refuted: no genesis block passes Validate. The rest of the statement holds.
* **C103** A call that sends to a peer returns: False: a peer that stops reading keeps every sender waiting for ever, without bound on their number. Proved: waiting happens only when the connection takes no bytes or the peer is not started, and a disconnect frees every caller.
* **C104** A block is sent to a peer at most once: False: n copies of an accepted block at the head height make n relays to a peer whose record is lower. Proved: one message makes at most one relay to each peer and none to a peer known to have the block or more.
* **C105** One silent peer does not stop the pool: False: once a remote has accepted the connection and says nothing, the dialling loop waits for its handshake for ever: no other address is dialled, also after Stop. Proved: in every reachable state in which the loop is not waiting for a remote it can move, or all 15 places are taken. The same after a successful handshake, when the remote does not take the first message (C105_refuted_unread).
* **C107** The remote address of a dialled peer is the address it is known by: False: a peer may tell 0.0.0.0 with a port; the connection dialled to it has the remote address 127.0.0.1, for which there is no entry, so a ban finds nothing. Proved: every key is a literal IPv4 address after every history, every answer can be serialised, and for all other addresses remote and key agree. C107_six_partial says the same of configured IPv6 addresses.
* **C108** Printed hashes and ids identify what they print: False for hashes under 16 bytes, which print like themselves with a zero byte in front. Proved for short ids and commitments of every length and for hashes of 16 bytes or more.
* **C110** A node that hears of more work adopts it: False: no history of messages moves the head, and no message the node sends while handling them asks for a header or block. Proved: nothing falls.
* **C111** The two ends of a connection know each other's state: False: the opening ping says height 1 and total difficulty 1 whatever the chain is, and the other end records it. The pong is right and is recorded.
* **C112** Refusing a block is an error, not a crash: Exactly one way to crash is left: a valid block on a stored parent whose proof of work has a hash with eight leading zero bytes makes FromHash divide by zero. C112_refuted shows it for a hash function with such a value. ProcessHeaders never crashes.
* **C113** A node describes itself truthfully when it connects: The frames in closed form. Refuted for the shipped node: it is on Testnet1 but announces the genesis of Testnet4, total difficulty 1 and the address 0.0.0.0:0.
* **C114** A serialised commitment can be read back: Holds only if the receiver already has the length of the commitment. Read fills the receiver as it is, so a fresh commitment stays empty and no error is reported.
* **C116** Relaying a block leaves out no peer known to be behind: False of the code: height and total difficulty are read one after the other without a lock, so a peer that tells twice in between is left out though its record is behind all the time (C116_refuted, from every state with a connection). Proved: not left out if the same one of the two numbers stays behind.
* **C117** A signature is accepted exactly when the Schnorr equation holds: False of the code: only abscissas are compared, so the opposite number is accepted too (C117_refuted). Proved: what SignMessage returns, and acceptance if and only if the equation holds up to sign, with the hashed bytes spelled out.
* **C118** WaitForDisconnect returns after the end of the connection: False of the code: quit is closed before the socket, and the handlers and the waiting call only look at quit, so the call can return while the connection is open (C118_refuted). Proved: nothing is read, handled or written after it has returned, and the connection is closed or closing it is the next step of whoever disconnects.
* **C121** An ended connection gives its place back: Proved for every connection of every reachable state of the composed model, before and after Stop, while no goroutine of Stop is at work, unless the read loop of the connection is in Ban. Missing: a read loop that bans its own peer keeps the place for ever (C121_lost_partial; C121_refuted shows that this state is reached), and the time while the goroutines of Stop are at work, when closing may deadlock (C79_refuted_deadlock).
* **C129** No peer can end the process: False of the code: a shake announcing a name too long for the memory, any transaction, and any compact block whose decoding panics end the process, from every state that waits for them; a block or headers the node does not accept may end it when the connection breaks while a message is being written (Ban returns from Close and writes to a nil map). Proved: the process can have ended only if what came in on some connection begins with one of these; otherwise nobody is banned and everybody is served. Assumed: point and range proof decoding (external) does not panic, memory for the biggest message.
* **C131** Stop leaves nothing behind: False of the code: a goroutine of Stop takes the lock of an address and waits in Close for a read loop that needs the same lock for the ping, pong or block it has just read; from every state in which such a message was just read Stop may come to wait so, and then for ever (unless the process ends). Proved: at rest after Stop every connection is over or held in one of two named ways (in Ban, or in this deadlock), and a goroutine of Stop that has not ended waits for such a connection.
* **C132** What waits for a peer that does not read is bounded: False of the code: from every moment at which a peer has stopped reading in the middle of a message, as many goroutines come to wait to send to it as the other peers send blocks the node accepts. Proved: at any time no more wait, but for one, than blocks with the height of the chain have come in.
* **C134** A relayed block dies out: A network of any number of nodes that relay one block. Proved for connections without cycles: whatever the schedule, and whatever messages get lost, no node gets the block twice and the one that sent it does not get it back, so there are fewer deliveries than nodes; n nodes have done with the block after 4 n² steps at the latest, and can always go on until then. Missing: connections with cycles, where it is false: in every ring of three or more nodes at the height of the block, each taking the next one to be behind, the block goes round as often as you like (C134_refuted), because a node that sends a block does not record that the peer now has it, and ProcessBlock answers a block it already has as if it were new. Assumed of all else that happens in a node: it does not make the node forget that a peer has the block.
* **C135** A block reaches every node: Proved, for any connections, of nodes that are at the height of the block, take it, and take their neighbours to be behind: at rest every node that there is a way to has got it, and without cycles exactly once; that the nodes come to rest is C134_rest_partial. Missing: nodes at other heights, where it is false (C135_refuted): there a block, such as one on top of the chain, reaches the neighbours of its sender and nobody else; and other work of the nodes meanwhile.
* **C137** The node has no data races: False for the status, peer, height, total difficulty and capabilities of a record, the number of connections and the lists of a block; refuted with schedules. Proved: no race at the chain, the nonces, the protocol version and the time of connection; only one writer at a time for peer, height, total difficulty and capabilities, and none but the holder while the lock of the record is held. Full: no race at any of them.
* **C139** Printed messages identify themselves: Proved for Ping, GetPeerAddrs, GetBlock and GetBlockHeaders, across kinds. False for Pong, which prints as a Ping, and for PeerAddrs, which prints where in memory the addresses are. Full: the same for those two.
* **C140** Every known address is tried: False of the code: an address that answers with another protocol version stays marked as never tried and may be dialled for ever instead (C140_refuted), so may one whose connection ends again and again (C140_refuted_lost), and while such an address is there no failed address is ever dialled again, under any schedule (C140_failed, C140_refuted_failed). Proved: other addresses are dialled at most as often as there were waiting addresses, plus how often an address came to be waiting, plus how many attempts left their address untried.
* **C141** Every peer is listed once: Proved for the shipped node after any messages from the wire, and which texts are addresses and ports. False of Add, which compares texts: zeros before the port make another entry for the same address, up to the whole table. Full: the same for all calls of Add.
* **C142** A chain can be fetched from a node that has it: Proved for a node whose head is the last block of its storage, whose blocks have different hashes and headers that can be sent; blocks also have to be short enough to be sent (C97_refuted). False of the code: the head is the one found at the start, so what the storage gets later is never told (C142_refuted); the SQL storage returns nothing at all (C142_refuted_sql).
* **C143** One host does not take all places: Proved: connections that nobody has begun to close are with different addresses if the texts in the table are as the node writes them. False of the code: fifteen texts of one address, or fifteen ports of one host, can take all places, and then nothing else is dialled while they stay.
* **C144** A restart resumes where the node was: Proved: at every crash point the chain the node is started with is the chain it had (nothing it did has changed it). False of the code: accepted blocks, learned addresses and bans are lost.
* **C145** A node goes on learning addresses: Proved: a told address enters the table unless it has 10001 entries. False of the code: nothing is ever removed, and any peer can fill the table for ever with forty messages about one host.
* **C146** Blocks are passed on in the order in which they came: When the goroutines of one call have ended, its block is not sent any more and no block of a later call has been sent. C146_refuted: for every history and every connected peer behind both blocks, the second block can be handed to the connection before the first.
* **C147** Coinbase outputs are spent only when they are mature: Maturity is not looked at: any valid accepted block may spend any output of any block in addition, also the coinbase output of its parent. What holds: a valid block has at most one coinbase output, and an input that spends it carries the flag.
* **C148** An output exists once: Any output of any valid block can be added again, any number of times, without its coinbase flag. What holds: two outputs of a valid block with the same commitment are not both coinbase outputs.
* **C149** Transactions are passed on: Refuted: in every reachable state of the whole program no connection was ever sent a transaction, whatever came in and whatever the pool of transactions took. Handing a transaction to the pool is proved.
* **C150** A peer is told what it did wrong: Refuted: nothing but pings, pongs, requests for addresses, addresses, headers and blocks is ever written on a connection. That an error message from a peer ends the connection is proved.
* **C152** A peer that no longer answers is noticed: False of the code: one ping is sent when the connection is opened, never another, and nothing follows when it is not answered (C152_refuted). What holds: C152_once_partial.

## What is modelled, file by file

| file | modelled | not modelled |
|---|---|---|
| `consensus/block.go` | all codecs with the in-place sorts, all hashes, `Validate` of block, header, output and kernel, version schedule, sort orders | `String` of whole blocks, log output |
| `consensus/transaction.go` | codec (there is no validation) | `String` of whole transactions |
| `consensus/proof.go` | bit packing, `Read`, `Hash`, `ToDifficulty`, `Validate` | – |
| `consensus/difficulty.go` | `FromHash`, `NextDifficulty` with its window | – |
| `consensus/id.go`, `locator.go`, `network.go`, `consensus.go` | short ids, locator codec, constants, the printed form of hashes and ids | – |
| `cuckoo/` | both verifiers, edge derivation, `findCycleLength`, SipHash-2-4 block | – |
| `secp256k1zkp/` | signatures, serialisation, commitments, `RandomInt` over any stream of random bytes | quality of the randomness |
| `chain/` | all methods of `Chain`, genesis blocks, `storage.go`'s interface as a parameter | – |
| `storage/mysql.go` | the stub it is | MySQL |
| `p2p/messages.go`, `protocol.go`, `helpers.go`, `handshake.go`, `server.go` | all codecs, framing, both sides of the handshake, the nonce table | `String` of messages with headers or texts in them; `rand` is a parameter (the code sets no socket deadlines) |
| `p2p/peer.go` | read loop, write loop, `Disconnect`, `WaitForDisconnect`, `Start`, `WriteMessage`, `Send…`, `NewPeer`, `AcceptNewPeer`, the byte counters; all goroutines of one connection in `Model/Lifecycle`, with the bytes read and written and the handling of the messages in `Model/Talk` | TCP itself (a connection is a byte stream that may end anywhere) |
| `p2p/pool.go` | everything, sequentially in `Model/Pool`, with its goroutines in `Model/PoolRun`, together with the goroutines of every connection in `Model/Whole`, these with all bytes and the handling of messages in `Model/Program`, with the handshakes in `Model/Full`, its locks and shared memory in `Model/Locks`, `PropagateBlock` read by read in `Model/Relay`, and any number of nodes that relay a block in `Model/Gossip` | real time |
| `p2p/sync.go` | `ProcessMessage` for every message, `NewSyncer` | log output |
| `cmd/node/main.go` | the node it builds (`LikeMain`) | logging set-up |

Not modelled anywhere: the cryptographic strength of anything (bulletproof verification is an opaque predicate in
the theorems); tearing and reordering of racy memory accesses beyond interleaving; real time, sleep and scheduling
fairness (stated as termination of all schedules instead); the operating system running out of sockets.

## Trusted base

* Lean 4.33.0's kernel and its elaboration of the statements; Mathlib for the Weierstrass group law and
  elementary algebra (proved there, nothing assumed).
* Axioms, as printed by `#print axioms` for every theorem of the manifest:
* `propext`, `Classical.choice`, `Quot.sound`: all 357 theorems of the table that are not named below.
* only `propext`, `Quot.sound`: `C09_disconnected`, `C15_canonical`, `C15_side_effect`, `C15_idempotent`, `C16_decoded_counts`, `C18_tx_sorted`, `C20_locator_roundtrip`, `C20_locator_decoded`, `C20_locator_fatal`, `C22_decoded`, `C22_refuted`, `C23_hand_gate`, `C25_no_genesis_partial`, `C26_cycle`, `C27_decoders_partial`, `C32_real_block`, `C35_exact`, `C36_monotone_partial`, `C36_refuted`, `C37_refuted`, `C38_from_hash_partial`, `C38_refuted_zero`, `C44_cuckaroo`, `C45_siphash24`, `C46_getters_agree`, `C49_refuted`, `C50_answer`, `C50_limit`, `C50_following`, `C51_refuted_misses`, `C51_refuted_diverges`, `C51_error_partial`, `C51_terminates_partial`, `C52_process_headers`, `C53_refuted_bytes`, `C59_choice`, `C61_only_blocks`, `C62_targets`, `C62_once`, `C68_order`, `C69_sign_verify`, `C70_unique_up_to_sign_partial`, `C70_refuted`, `C71_secp256k1_refuted`, `C74_bound_partial`, `C74_first`, `main_like`, `likeMain_preserved`, `C79_waits_partial`, `C79_refuted_twice`, `C82_queued`, `C82_refuted`, `C86_valid_partial`, `C89_each_valid_partial`, `C89_refuted`, `C89_refuted_twice`, `C93_not_dialled_partial`, `C98_weight_partial`, `C102_refuted`, `C103_refuted`, `C103_unbounded`, `Print.C108_ids`, `Print.C108_hash_partial`, `Print.C108_refuted`, `C118_refuted`, `C120_written`, `C136_maps`, `C137_fields_partial`, `C137_sections_partial`, `C138_given_back`, `C142_lookup`, `C144_chain_partial`, `C144_refuted_blocks`.
* only `propext`: `C02_get_block`, `C23_shake_gate`, `C28_input`, `C56_refuted_how`, `C72_message_length`, `C73_homomorphic`, `C73_homomorphic_mod`, `C73_zero_value`, `C102_start_partial`, `C102_header`, `C114_same_length_partial`, `C114_keeps_length_partial`, `C114_refuted`, `answers_said`.
* no axioms: `C67_reached`.
* No `sorry`, `admit`, `native_decide`, `bv_decide`, no axioms of our own, no `implemented_by`, no `unsafe`.
* The reading of the Go code that is recorded in the model: each definition cites the lines it models.
* For external code: what the hypotheses of a theorem say about it, and nothing else.

## Tests of the theorems

`seeded/LOG.jsonl` records the wrong programs the theorems were tried against: one edit of a definition of the
model per line, the claim it breaks, and the theorems that no longer prove. A theorem is listed as failed if its own proof
fails or that of a lemma it depends on. The dependencies are those of the present development, so a theorem that was
added after the edit was tried is listed when it depends on a lemma that failed then.

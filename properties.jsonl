{"id": "C01", "title": "Frame header round-trip and magic check", "statement": "Serialising a message header gives exactly 11 bytes: magic, type, big-endian length. Reading those bytes back gives the same type and length and leaves the rest of the stream untouched. Reading succeeds exactly when at least 11 bytes are available and the first two are 0x54 0x34.", "quantifier": "all type bytes, all 64-bit lengths, all byte streams", "why_tests_cant": "2^72 headers and every possible malformed stream", "anchors": ["p2p/messages.go: Header.Bytes, Header.Write, Header.Read, Header.validateMagic", "consensus/network.go: MagicCode, HeaderLen"]}
{"id": "C02", "title": "Fixed-layout control messages round-trip", "statement": "Ping, Pong, GetPeerAddrs, GetBlock and PeerError decode from their own serialisation to the same value and consume exactly those bytes.", "quantifier": "all field values, all trailing bytes", "why_tests_cant": "the field domains are 64-bit and the error text has any length", "anchors": ["p2p/messages.go: Ping, Pong, GetPeerAddrs, GetBlock, PeerError"]}
{"id": "C03", "title": "WriteMessage / ReadMessage round-trip", "statement": "If a message's Read inverts its Bytes and its body is at most MaxMsgLen bytes, then ReadMessage on what WriteMessage wrote returns that message, both sides report 11 + len(body) bytes, and the rest of the stream is untouched.", "quantifier": "all message kinds, all values, all trailing streams", "why_tests_cant": "any message, any length up to 20 MB, any following traffic", "anchors": ["p2p/protocol.go: WriteMessage, ReadMessage"]}
{"id": "C04", "title": "ReadMessage refuses foreign and oversized frames", "statement": "ReadMessage returns an error, without running the body decoder, whenever the magic is wrong, the type differs from the expected one, or the announced length exceeds MaxMsgLen.", "quantifier": "all streams, all expected types", "why_tests_cant": "every stream and every announced length", "anchors": ["p2p/protocol.go: ReadMessage", "consensus/network.go: MaxMsgLen"]}
{"id": "C05", "title": "ReadMessage never reads past its frame", "statement": "Whatever the body decoder does, ReadMessage takes at most 11 + Len bytes off the stream, where Len is the announced length.", "quantifier": "all decoders, all streams, success and failure alike", "why_tests_cant": "quantifies over all decoders and all streams", "anchors": ["p2p/protocol.go: ReadMessage"]}
{"id": "C06", "title": "Frame leftovers do not desynchronise the connection", "statement": "After ReadMessage returns without error, the stream is positioned at the start of the next frame.", "quantifier": "all streams, all message kinds", "why_tests_cant": "needs bodies that are longer than their decoder consumes", "anchors": ["p2p/protocol.go: ReadMessage"]}
{"id": "C07", "title": "Peer read loop splits the stream exactly at frame boundaries", "statement": "If a peer sends any sequence of frames whose bodies decode, the read loop dispatches exactly those messages in order, even when bodies carry trailing bytes, and the received-bytes counter equals the total number of bytes in those frames.", "quantifier": "all finite sequences of well-formed frames", "why_tests_cant": "any number and mix of messages", "anchors": ["p2p/peer.go: readHandler"]}
{"id": "C08", "title": "Peer read loop stops at the first bad frame", "statement": "On a frame with wrong magic, an oversized length, a truncated or undecodable body or an unsupported type, the read loop stops: nothing that follows in the stream is dispatched, and messages before it were dispatched exactly as if the stream ended there.", "quantifier": "all prefixes of good frames, all bad frames, all continuations", "why_tests_cant": "every position of the fault and every continuation", "anchors": ["p2p/peer.go: readHandler"]}
{"id": "C09", "title": "Read loop is causal", "statement": "The messages dispatched for a stream are a prefix of those dispatched for any extension of that stream, and there are at most length/11 of them.", "quantifier": "all byte streams and all extensions", "why_tests_cant": "every split point of every stream", "anchors": ["p2p/peer.go: readHandler"]}
{"id": "C10", "title": "Proof-of-work nonces bit-pack losslessly", "statement": "A proof with 42 nonces, 1 <= EdgeBits <= 64 and every nonce below 2^EdgeBits decodes from its serialisation to itself; the serialisation has 1 + ceil(42*EdgeBits/8) bytes.", "quantifier": "all edge-bit sizes 1..64, all nonce vectors", "why_tests_cant": "42 32-bit nonces for 64 sizes", "anchors": ["consensus/proof.go: Proof.Bytes, Proof.ProofBytes, Proof.Read"]}
{"id": "C11", "title": "Proof-of-work decoding is canonical", "statement": "Re-serialising a decoded proof reproduces the bytes it was decoded from, so one proof has one wire encoding.", "quantifier": "all byte strings accepted by Proof.Read", "why_tests_cant": "padding bits and high bits appear in rare encodings only", "anchors": ["consensus/proof.go: Proof.Read, Proof.ProofBytes"]}
{"id": "C12", "title": "Block header round-trip", "statement": "A header with 32-byte hashes, 32-byte kernel offset, whole-second int64 timestamp and a packable proof decodes from its serialisation to a header that agrees on every field that is on the wire; Difficulty and TotalKernelSum are not transmitted and come back zero/empty. A header with a hash of any other length is never serialised: the process terminates instead.", "quantifier": "all header values meeting those size conditions, all trailing bytes", "why_tests_cant": "sixteen wide fields", "anchors": ["consensus/block.go: BlockHeader.Bytes, bytesWithoutPOW, BlockHeader.Read"]}
{"id": "C13", "title": "Decoded headers can be processed safely", "statement": "Any header accepted by BlockHeader.Read can be serialised, hashed and validated without terminating the process or panicking.", "quantifier": "all byte streams", "why_tests_cant": "every byte stream an attacker may send", "anchors": ["consensus/block.go: BlockHeader.Read, bytesWithoutPOW, Validate, Hash", "consensus/proof.go"]}
{"id": "C14", "title": "Full block round-trip", "statement": "Decoding the serialisation of a block with at most 1,000,000 inputs, outputs and kernels yields the same header (wire fields) and the same inputs, outputs and kernels in hash order.", "quantifier": "all blocks within the count limits", "why_tests_cant": "unbounded contents", "anchors": ["consensus/block.go: Block.Bytes, Block.Read, Input, Output, TxKernel"]}
{"id": "C15", "title": "Block serialisation is canonical", "statement": "Two blocks whose headers are equal and whose inputs, outputs and kernels are equal up to order serialise to the same bytes provided no two elements of a list have the same hash; serialising sorts the lists in place, changes nothing else and is idempotent.", "quantifier": "all blocks, all permutations", "why_tests_cant": "n! permutations", "anchors": ["consensus/block.go: Block.Bytes, InputList.Less, OutputList.Less, TxKernelList.Less"]}
{"id": "C16", "title": "Block decoder enforces count limits", "statement": "Block.Read and Transaction.Read reject any message announcing more than 1,000,000 inputs, outputs or kernels before allocating or reading them.", "quantifier": "all byte streams", "why_tests_cant": "all 2^192 count triples", "anchors": ["consensus/block.go: Block.Read", "consensus/transaction.go: Transaction.Read"]}
{"id": "C17", "title": "Transaction round-trip", "statement": "Decoding the serialisation of any transaction with at most 1,000,000 inputs, outputs and kernels yields an equal transaction with its lists in hash order.", "quantifier": "all transactions", "why_tests_cant": "unbounded contents", "anchors": ["consensus/transaction.go: Transaction.Bytes, Transaction.Read"]}
{"id": "C18", "title": "Transactions accepted from the wire are sorted", "statement": "If Transaction.Read succeeds then inputs, outputs and kernels are each in non-decreasing order of their BLAKE2b hash.", "quantifier": "all byte streams", "why_tests_cant": "every byte stream", "anchors": ["consensus/transaction.go: Transaction.Read"]}
{"id": "C19", "title": "Compact block round-trip", "statement": "Decoding the serialisation of a compact block yields an equal compact block with its lists sorted.", "quantifier": "all compact blocks", "why_tests_cant": "list lengths beyond 255 matter", "anchors": ["consensus/block.go: CompactBlock.Bytes, CompactBlock.Read"]}
{"id": "C20", "title": "Locator round-trip and limit", "statement": "A locator with at most 14 32-byte hashes decodes from its serialisation to itself; a decoded locator never has more than 14 hashes; serialising more than 14 terminates the process.", "quantifier": "all locators, all byte streams", "why_tests_cant": "all hash lists", "anchors": ["consensus/locator.go: Locator.Bytes, Locator.Read", "p2p/messages.go: GetBlockHeaders"]}
{"id": "C21", "title": "Header list round-trip and limit", "statement": "A BlockHeaders message with at most 512 wire-complete headers decodes from its serialisation to itself; a decoded one never has more than 512.", "quantifier": "all header lists, all byte streams", "why_tests_cant": "all header lists", "anchors": ["p2p/messages.go: BlockHeaders.Bytes, BlockHeaders.Read"]}
{"id": "C22", "title": "Peer address round-trip", "statement": "A peer address (IPv4 or IPv6) with a 16-bit port decodes from its serialisation to the same address, and a PeerAddrs message of up to 256 such addresses round-trips.", "quantifier": "all IPv4 and IPv6 addresses, all ports, all lists up to 256", "why_tests_cant": "2^128 addresses", "anchors": ["p2p/helpers.go: serializeTCPAddr, deserializeTCPAddr", "p2p/messages.go: PeerAddrs"]}
{"id": "C23", "title": "Handshake messages round-trip and gate the version", "statement": "hand and shake messages with a 32-byte genesis hash decode from their serialisation to themselves, and any hand or shake that decodes has protocol version 1.", "quantifier": "all hand/shake values, all byte streams", "why_tests_cant": "all values and all byte streams", "anchors": ["p2p/handshake.go: hand, shake"]}
{"id": "C24", "title": "Two nodes complete the handshake", "statement": "The shake produced when answering a peer's hand is accepted by the shake reader of the connecting node.", "quantifier": "all hands, all following traffic", "why_tests_cant": "depends on both ends for all message contents", "anchors": ["p2p/handshake.go: shakeByHand, handByShake, shake.Bytes, shake.Read"]}
{"id": "C25", "title": "Handshake refuses peers on another chain", "statement": "A handshake with a peer announcing a genesis hash different from ours fails.", "quantifier": "all hands and shakes", "why_tests_cant": "all genesis values", "anchors": ["p2p/handshake.go: shakeByHand, handByShake"]}
{"id": "C26", "title": "Self-connection detection", "statement": "If a node receives a hand it created itself, at any time and after any number of other handshakes, the handshake fails with an error and no shake is sent.", "quantifier": "all histories of nonce draws, all hands", "why_tests_cant": "unbounded histories over random nonce tables", "anchors": ["p2p/server.go: nonceList", "p2p/handshake.go: shakeByHand, handByShake"]}
{"id": "C27", "title": "Decoders do not panic or over-allocate", "statement": "No byte stream makes a message decoder panic or request memory out of proportion to the limits: each single allocation stays below a fixed bound.", "quantifier": "all byte streams, all message kinds", "why_tests_cant": "all byte streams", "anchors": ["consensus/block.go: Block.Read, CompactBlock.Read", "consensus/transaction.go", "p2p/handshake.go", "p2p/messages.go: PeerError.Read"]}
{"id": "C28", "title": "Kernel, input and output codecs", "statement": "A kernel, an input with a 33-byte commitment, and an output with a range proof of at most 5134 bytes decode from their serialisation to themselves; outputs announcing a longer proof are rejected; kernel encodings take 114 bytes and input encodings 34.", "quantifier": "all values, all trailing bytes", "why_tests_cant": "wide fields", "anchors": ["consensus/block.go: TxKernel, Input, Output"]}
{"id": "C29", "title": "Block version schedule", "statement": "A block version is accepted at a height exactly when: version 1 below height 95000, version 2 from 95000 to 249999, version 3 from 250000 to 499999; no version is accepted from 500000 on.", "quantifier": "all heights and versions", "why_tests_cant": "2^80 pairs", "anchors": ["consensus/block.go: ValidateBlockVersion"]}
{"id": "C30", "title": "Header validation rule", "statement": "Header validation succeeds exactly when the version fits the height, the timestamp is at most 720 s ahead of now, EdgeBits is 29 or at least 30, scaling is 1 unless EdgeBits is 29, and the proof of work verifies for the header bytes without the proof.", "quantifier": "all well-formed headers, all clock values", "why_tests_cant": "all field combinations", "anchors": ["consensus/block.go: BlockHeader.Validate", "consensus/proof.go: Proof.Validate"]}
{"id": "C31", "title": "Blocks from the far future are refused", "statement": "No header decoded from the wire whose timestamp is more than 720 s after now is accepted.", "quantifier": "all 64-bit wire timestamps, all clock values", "why_tests_cant": "2^64 timestamps including overflow values", "anchors": ["consensus/block.go: BlockHeader.Read, BlockHeader.Validate"]}
{"id": "C32", "title": "Block validation rule", "statement": "Block validation succeeds exactly when the header is valid, there is at least one output and one kernel, all three lists are sorted by hash, at most one output and at most one kernel carry the coinbase flag, the coinbase kernel's signature verifies, and every range proof verifies.", "quantifier": "all blocks", "why_tests_cant": "unbounded lists", "anchors": ["consensus/block.go: Block.Validate, verifySorted, verifyCoinbase, verifyRangeProofs, verifyKernels"]}
{"id": "C33", "title": "Every kernel of a valid block is signed", "statement": "If block validation succeeds, every kernel's excess signature verifies.", "quantifier": "all blocks", "why_tests_cant": "unbounded lists", "anchors": ["consensus/block.go: verifyKernels, TxKernel.Validate"]}
{"id": "C34", "title": "No duplicate inputs in a valid block", "statement": "If block validation succeeds, no input, output or kernel occurs twice.", "quantifier": "all blocks", "why_tests_cant": "unbounded lists", "anchors": ["consensus/block.go: verifySorted"]}
{"id": "C35", "title": "Difficulty adjustment value", "statement": "NextDifficulty of a non-empty history is at least 1, and for a full window of 71 blocks it is the average difficulty of the 60 blocks at the front of the list, scaled by the damped and bounded time span; with no arithmetic overflow it never exceeds that average.", "quantifier": "all block lists", "why_tests_cant": "lists of any length, 64-bit fields with wrap-around", "anchors": ["consensus/difficulty.go: NextDifficulty", "consensus/consensus.go: UpperTimeBound, LowerTimeBound"]}
{"id": "C36", "title": "Difficulty adjustment reacts to block times", "statement": "With a full window, a history mined faster yields a higher next difficulty than the same history mined slower.", "quantifier": "all histories", "why_tests_cant": "comparison over all timestamp vectors", "anchors": ["consensus/difficulty.go: NextDifficulty", "consensus/consensus.go: UpperTimeBound, LowerTimeBound"]}
{"id": "C37", "title": "Difficulty adjustment works on any longer history", "statement": "Given at least 71 past blocks, NextDifficulty uses the most recent window, whatever the number of additional older blocks supplied.", "quantifier": "all histories of 71 or more blocks", "why_tests_cant": "any length", "anchors": ["consensus/difficulty.go: NextDifficulty"]}
{"id": "C38", "title": "Difficulty of a hash", "statement": "The difficulty of a hash is floor(0x0fffffffffffffff / first 8 bytes); smaller hashes never have smaller difficulty; it is at least the minimum difficulty 1.", "quantifier": "all 32-byte hashes", "why_tests_cant": "2^256 hashes, with a zero prefix and a large prefix as corner cases", "anchors": ["consensus/difficulty.go: Difficulty.FromHash", "consensus/proof.go: Proof.ToDifficulty"]}
{"id": "C39", "title": "Short ids", "statement": "The short id of a hash relative to a block hash of at least 16 bytes is exactly 6 bytes, the low 48 bits (little endian) of the keyed SipHash; with a shorter block hash the call panics.", "quantifier": "all hashes and block hashes", "why_tests_cant": "all byte strings", "anchors": ["consensus/id.go: Hash.ShortID"]}
{"id": "C40", "title": "Cuckoo verifiers refuse malformed nonce lists", "statement": "Verification fails for an empty list, for any list not strictly increasing, and for any nonce outside the edge range; otherwise the verdict is that of the cycle check on the edges derived from the nonces.", "quantifier": "all nonce lists, all keys, all sizes", "why_tests_cant": "all lists", "anchors": ["cuckoo/cuckoo.go: Cuckoo.Verify, Cuckaroo.Verify"]}
{"id": "C41", "title": "Cycle check terminates", "statement": "The cycle check stops after at most n matching steps on n edges and its result is at most n.", "quantifier": "all edge lists", "why_tests_cant": "any multigraph", "anchors": ["cuckoo/cuckoo.go: findCycleLength"]}
{"id": "C42", "title": "Cycle check accepts every cycle", "statement": "If the n edges form one simple cycle (every endpoint shared by exactly two edges, connected), the cycle check returns n whatever the order of the edges.", "quantifier": "all edge lists forming a cycle", "why_tests_cant": "all cycles of all lengths in all orders", "anchors": ["cuckoo/cuckoo.go: findCycleLength"]}
{"id": "C43", "title": "Cycle check accepts only cycles", "statement": "If the cycle check returns n for n > 0 edges, the edges form one simple cycle.", "quantifier": "all edge lists", "why_tests_cant": "all multigraphs", "anchors": ["cuckoo/cuckoo.go: findCycleLength, Cuckaroo.Verify"]}
{"id": "C44", "title": "Edge endpoints are in range and in the right partition", "statement": "Cuckoo edges have an even U and an odd V, both below the number of vertices (for graph sizes 2^1 to 2^63); Cuckaroo endpoints are at most the edge mask. The endpoints are exactly those of the published construction: SipHash-2-4 keyed with the four little-endian words of the hash of the key, of 2n and 2n+1 for Cuckoo, and the two halves of the block hash for Cuckaroo.", "quantifier": "all keys, nonces and sizes", "why_tests_cant": "2^256 keys", "anchors": ["cuckoo/cuckoo.go: newNode, NewEdge"]}
{"id": "C45", "title": "Block SipHash", "statement": "siphashBlock returns, for a nonce in a 64-block of consecutive nonces hashed in a chain, the digest after that nonce XOR the final digest, and the plain final digest for the last nonce of the block; it reads no nonce outside the block. The hash of one nonce is SipHash-2-4 as published.", "quantifier": "all keys and 32-bit nonces", "why_tests_cant": "2^288 inputs", "anchors": ["cuckoo/siphash24.go: siphashBlock, Write64"]}
{"id": "C46", "title": "Chain getters agree for all histories", "statement": "After any sequence of ProcessBlock, ProcessHeaders, GetBlock, GetBlockHeaders and Validate calls, Height and TotalDifficulty are those of Head's header, and none of these calls moves them backwards.", "quantifier": "all storages, all call histories", "why_tests_cant": "unbounded histories", "anchors": ["chain/chain.go: New, Height, TotalDifficulty, Head, ProcessBlock"]}
{"id": "C47", "title": "ProcessBlock acceptance rule", "statement": "ProcessBlock returns nil exactly when the block is the current tip, or it validates and either its parent is not stored or all of: time after the parent's, total difficulty equal to the parent's plus the difficulty of the parent's proof (mod 2^64), own difficulty at least NextDifficulty.", "quantifier": "all chains, storages and blocks", "why_tests_cant": "all combinations", "anchors": ["chain/chain.go: ProcessBlock"]}
{"id": "C48", "title": "A valid block from a peer that extends a stored block is accepted", "statement": "A block decoded from the wire that passes block validation and correctly extends a stored block is accepted by ProcessBlock.", "quantifier": "all wire blocks, all storages", "why_tests_cant": "all wire blocks", "anchors": ["chain/chain.go: ProcessBlock", "consensus/block.go: BlockHeader.Read", "p2p/sync.go: ProcessMessage"]}
{"id": "C49", "title": "Accepted blocks become the new head", "statement": "After ProcessBlock accepts a block that extends the tip, Head, Height and GetBlock reflect it.", "quantifier": "all chains and blocks", "why_tests_cant": "all histories", "anchors": ["chain/chain.go: ProcessBlock", "storage/mysql.go"]}
{"id": "C50", "title": "GetBlockHeaders answer", "statement": "GetBlockHeaders returns at most 512 headers (given a storage that honours limits), returns none if a locator hash is the head before any other match, otherwise the headers after the first locator hash (among the first 14) that is stored, never including that block itself.", "quantifier": "all locators, storages", "why_tests_cant": "all locators", "anchors": ["chain/chain.go: GetBlockHeaders"]}
{"id": "C51", "title": "Chain.Validate finds invalid blocks", "statement": "Chain.Validate returns nil only if every block from the head down to the genesis passes block validation and the links are intact, and it terminates on every storage.", "quantifier": "all storages", "why_tests_cant": "all chains", "anchors": ["chain/chain.go: Validate"]}
{"id": "C52", "title": "ProcessHeaders is all-or-nothing", "statement": "ProcessHeaders returns nil exactly when every header is valid, otherwise the error of the first invalid one; it changes no state.", "quantifier": "all header lists", "why_tests_cant": "all lists", "anchors": ["chain/chain.go: ProcessHeaders"]}
{"id": "C53", "title": "Genesis hashes identify their chains", "statement": "Distinct predefined genesis blocks have distinct hashes and each can be serialised.", "quantifier": "the predefined genesis blocks, any collision-free hash", "why_tests_cant": "the property must hold for whichever hash function is plugged in, and serialisation failure ends the process", "anchors": ["chain/chain.go: Testnet1, Testnet2, Testnet3, Testnet4, Mainnet", "consensus/block.go: BlockHeader.Hash"]}
{"id": "C54", "title": "Peers answer filter", "statement": "Peers(caps) returns at most 256 addresses, each resolved from a table entry that is not banned, not failed and has all requested capabilities, whatever the map iteration order; if fewer than 256 qualify, all qualifying resolvable ones are returned. The answer can always be serialised.", "quantifier": "all tables, capabilities, iteration orders", "why_tests_cant": "map order is random", "anchors": ["p2p/pool.go: Peers", "p2p/messages.go: PeerAddrs.Bytes"]}
{"id": "C55", "title": "Peer table is bounded and stable under Add", "statement": "Add never changes or removes an existing entry, adds at most one entry, never adds multicast, port-0 or unresolvable addresses, and the table never exceeds maxPeersTableSize entries.", "quantifier": "all histories", "why_tests_cant": "histories longer than 10000 operations", "anchors": ["p2p/pool.go: Add"]}
{"id": "C56", "title": "Banning takes effect", "statement": "After Ban(addr) for a known peer returns, IsBan(addr) is true and the connection is closed.", "quantifier": "all histories, all callers", "why_tests_cant": "all interleavings of callers and handlers", "anchors": ["p2p/pool.go: Ban, IsBan, newPeersPool", "p2p/peer.go: Disconnect"]}
{"id": "C57", "title": "Outgoing connections are capped", "statement": "At no time are there more than 15 open connections started by the pool.", "quantifier": "all schedules of the run loop and disconnect callbacks", "why_tests_cant": "all interleavings", "anchors": ["p2p/pool.go: Run, connectPeer"]}
{"id": "C58", "title": "Connection slots are not lost", "statement": "Whenever fewer than 15 connections are open and the table has a connectable peer, the pool eventually tries to connect to it.", "quantifier": "all schedules", "why_tests_cant": "liveness over all schedules", "anchors": ["p2p/pool.go: Run, connectPeer, notConnected"]}
{"id": "C59", "title": "Choice of the next peer to dial", "statement": "The pool only dials table entries that are new, disconnected or failed, and dials a failed one only when no new or disconnected entry exists; it never dials a banned or connected one.", "quantifier": "all tables, iteration orders", "why_tests_cant": "map order is random", "anchors": ["p2p/pool.go: notConnected, connectPeer"]}
{"id": "C60", "title": "Ping is answered with our chain state", "statement": "Processing a Ping from a known peer records its difficulty and height and queues exactly one Pong with the chain's total difficulty and height; a Pong records without answering.", "quantifier": "all node states and messages", "why_tests_cant": "all states", "anchors": ["p2p/sync.go: ProcessMessage"]}
{"id": "C61", "title": "Only valid blocks are relayed", "statement": "A block received from a peer is propagated to other peers only if ProcessBlock accepted it.", "quantifier": "all node states and blocks", "why_tests_cant": "all states", "anchors": ["p2p/sync.go: ProcessMessage", "p2p/pool.go: PropagateBlock"]}
{"id": "C62", "title": "Block relay targets", "statement": "PropagateBlock sends to exactly those connected peers whose recorded height or total difficulty is below the block's.", "quantifier": "all pools and blocks", "why_tests_cant": "all states", "anchors": ["p2p/pool.go: PropagateBlock"]}
{"id": "C63", "title": "Recorded peer state never goes backwards on blocks", "statement": "Processing a block never lowers the recorded height or total difficulty of the sending peer.", "quantifier": "all node states and blocks", "why_tests_cant": "all states", "anchors": ["p2p/sync.go: ProcessMessage"]}
{"id": "C64", "title": "A known peer's message never hits the fatal path", "statement": "In every reachable pool state, handling any message from a peer the pool connected to never terminates the process with 'unexpected error'.", "quantifier": "all histories", "why_tests_cant": "all histories", "anchors": ["p2p/sync.go: ProcessMessage", "p2p/pool.go: PeerInfo, Ban"]}
{"id": "C65", "title": "Quit channel closed once", "statement": "However many goroutines disconnect a peer concurrently, its quit channel and connection are closed exactly once and no panic results.", "quantifier": "all schedules, any number of callers", "why_tests_cant": "all interleavings of unboundedly many threads", "anchors": ["p2p/peer.go: Disconnect, Close, readHandler, writeHandler"]}
{"id": "C66", "title": "Disconnect completes", "statement": "Once any goroutine other than the peer's own handlers starts disconnecting, every schedule ends with both handlers stopped and every Disconnect, WaitForDisconnect and pending WriteMessage call returned.", "quantifier": "all schedules, any number of callers", "why_tests_cant": "termination over all interleavings", "anchors": ["p2p/peer.go: Disconnect, WaitForDisconnect, WriteMessage, readHandler, writeHandler"]}
{"id": "C67", "title": "Banning a peer from its own read loop completes", "statement": "When handling a message makes the node ban the sending peer, the ban completes and the peer's slot is released.", "quantifier": "all schedules", "why_tests_cant": "deadlock over all schedules", "anchors": ["p2p/sync.go: ProcessMessage", "p2p/pool.go: Ban", "p2p/peer.go: Disconnect, WaitForDisconnect"]}
{"id": "C68", "title": "Outgoing messages are sent in order, at most once", "statement": "The bytes written to a connection are the frames of the accepted WriteMessage calls in order of acceptance, except that the last accepted message may be missing or cut short, and the sent-bytes counter equals the completely written frames' bytes.", "quantifier": "all schedules, any number of senders", "why_tests_cant": "all interleavings", "anchors": ["p2p/peer.go: writeHandler, WriteMessage"]}
{"id": "C69", "title": "Schnorr signatures verify", "statement": "A signature made with the private key of a public key verifies under that key and message.", "quantifier": "all keys, nonces, messages, any lawful curve", "why_tests_cant": "2^768 combinations", "anchors": ["secp256k1zkp/schnorr.go: SignMessage, VerifySignature"]}
{"id": "C70", "title": "Signatures are not malleable", "statement": "From a valid signature nobody without the key can make a different valid signature for the same key and message.", "quantifier": "all valid signatures", "why_tests_cant": "all signatures", "anchors": ["secp256k1zkp/schnorr.go: VerifySignature, DecodeSignature"]}
{"id": "C71", "title": "Serialised signatures verify", "statement": "A signature made by SignMessage, serialised with Bytes and decoded with DecodeSignature, verifies.", "quantifier": "all keys, nonces, messages", "why_tests_cant": "depends on the parity of a random point", "anchors": ["secp256k1zkp/schnorr.go: Signature.Bytes, DecodeSignature, SignMessage, VerifySignature"]}
{"id": "C72", "title": "Signed kernel message is injective", "statement": "Different (fee, lock height) pairs give different 32-byte messages, and the bytes hashed for the challenge determine nonce point abscissa, public key abscissa and parity, and message.", "quantifier": "all fees, lock heights, points", "why_tests_cant": "2^128 pairs", "anchors": ["secp256k1zkp/schnorr.go: ComputeMessage, CompressPubkey, VerifySignature"]}
{"id": "C73", "title": "Commitments are homomorphic", "statement": "The sum of two Pedersen commitments is the commitment to the sums of blinding factors and values.", "quantifier": "all blinds and values, any lawful curve", "why_tests_cant": "2^1024 combinations", "anchors": ["secp256k1zkp/schnorr.go: CommitValue"]}
{"id": "C74", "title": "RandomInt stays in the scalar range", "statement": "RandomInt returns a value in 0..n-1 whenever it returns.", "quantifier": "all random byte streams", "why_tests_cant": "all random streams", "anchors": ["secp256k1zkp/schnorr.go: RandomInt"]}
{"id": "C75", "title": "The node never crashes on a peer's message", "statement": "The node as started by cmd/node survives every message a connected peer can send.", "quantifier": "all messages", "why_tests_cant": "all messages", "anchors": ["cmd/node/main.go: main", "p2p/sync.go: ProcessMessage", "p2p/peer.go: readHandler"]}
{"id": "C76", "title": "A block is not sent back to its sender", "statement": "Processing a block received from a peer never queues that block for the same peer.", "quantifier": "all node states and blocks", "why_tests_cant": "all states", "anchors": ["p2p/sync.go: ProcessMessage", "p2p/pool.go: PropagateBlock"]}
{"id": "C77", "title": "Blocks are relayed to every open connection", "statement": "Whenever a block is relayed, it goes to every open connection made by the pool whose peer is not known to have a block as high and as heavy.", "quantifier": "all schedules of the run loop, disconnections and reconnections", "why_tests_cant": "all interleavings", "anchors": ["p2p/pool.go: PropagateBlock, connectPeer"]}
{"id": "C78", "title": "One connection per address", "statement": "The pool never has two open connections to the same address, and does not dial an address it is connected to.", "quantifier": "all schedules", "why_tests_cant": "all interleavings", "anchors": ["p2p/pool.go: connectPeer, notConnected"]}
{"id": "C79", "title": "Stop shuts the pool down", "statement": "After Stop the run loop ends, every connection made by the pool gets closed, and neither panics nor blocks; calling Stop again is harmless.", "quantifier": "all schedules and tables", "why_tests_cant": "all interleavings", "anchors": ["p2p/pool.go: Run, Stop", "p2p/peer.go: Close, Disconnect", "p2p/sync.go: ProcessMessage"]}
{"id": "C80", "title": "A banned peer is not dialled again", "statement": "After Ban of an address the pool does not dial it again while the process runs.", "quantifier": "all schedules", "why_tests_cant": "all interleavings", "anchors": ["p2p/pool.go: Ban, connectPeer, notConnected"]}
{"id": "C81", "title": "Messages arrive as sent", "statement": "Messages accepted for sending are handed on by the remote read loop in the order they were accepted, each with the content it was sent with (block and transaction elements sorted, addresses as the same endpoint); at every moment of every schedule what was handed on is a prefix of what was accepted.", "quantifier": "all lists of messages, all schedules of the sending peer", "why_tests_cant": "unbounded message lists and interleavings", "anchors": ["p2p/protocol.go: WriteMessage, ReadMessage", "p2p/peer.go: writeHandler, readHandler"]}
{"id": "C82", "title": "Requests reach the peer as made", "statement": "Each Send method of a peer queues exactly the message it is named after with the given content, and the remote side receives that request; no argument crashes the sending process.", "quantifier": "all hashes, locators, capabilities, blocks and transactions", "why_tests_cant": "all arguments", "anchors": ["p2p/peer.go: SendPing, SendBlockRequest, SendBlock, SendPeerRequest, SendHeaderRequest, SendTransaction"]}
{"id": "C83", "title": "A header commits to its block", "statement": "Two valid blocks with the same header have the same contents, and the message a proof of work is made for determines every transmitted header field but the proof.", "quantifier": "all pairs of blocks", "why_tests_cant": "all pairs of blocks", "anchors": ["consensus/block.go: Block.Validate, bytesWithoutPOW"]}
{"id": "C84", "title": "No money from nothing", "statement": "The output commitments of an accepted block sum to what its inputs, kernels, reward and offset prescribe, and every output has a verifying range proof.", "quantifier": "all blocks, chains and storages", "why_tests_cant": "all blocks", "anchors": ["consensus/block.go: Block.Validate, verifyRangeProofs", "chain/chain.go: ProcessBlock"]}
{"id": "C85", "title": "Lock heights are respected", "statement": "No accepted block contains a kernel whose lock height is above the height of the block, and no lock height or fee can be altered without a new signature.", "quantifier": "all blocks and kernels", "why_tests_cant": "all blocks", "anchors": ["consensus/block.go: verifyKernels, TxKernel.Validate"]}
{"id": "C86", "title": "Only valid blocks are accepted", "statement": "A block for which ProcessBlock reports no error is valid.", "quantifier": "all chains, storages and blocks", "why_tests_cant": "all blocks", "anchors": ["chain/chain.go: ProcessBlock", "consensus/block.go: Block.Hash"]}
{"id": "C87", "title": "Exactly one coinbase", "statement": "Every valid block has exactly one coinbase output and exactly one coinbase kernel.", "quantifier": "all blocks", "why_tests_cant": "all blocks", "anchors": ["consensus/block.go: verifyCoinbase, verifyKernels"]}
{"id": "C88", "title": "Accepted blocks link to their parent", "statement": "If the storage has the block named as predecessor, an accepted block is one higher and later than it.", "quantifier": "all chains, stored block lists and blocks", "why_tests_cant": "all histories", "anchors": ["chain/chain.go: ProcessBlock"]}
{"id": "C89", "title": "Accepted headers form a chain", "statement": "A list of headers accepted by ProcessHeaders consists of valid headers each of which names the one before it as predecessor and is one higher.", "quantifier": "all lists of headers", "why_tests_cant": "all lists", "anchors": ["chain/chain.go: ProcessHeaders"]}
{"id": "C90", "title": "Inputs spend existing outputs", "statement": "Every input of an accepted block names an output that exists, is unspent, and is not created by the same block.", "quantifier": "all chains, storages and blocks", "why_tests_cant": "all histories", "anchors": ["consensus/block.go: Block.Validate", "chain/chain.go: ProcessBlock"]}
{"id": "C91", "title": "Total difficulty grows", "statement": "An accepted block has a larger total difficulty than the stored block it follows.", "quantifier": "all chains, storages and blocks", "why_tests_cant": "all histories", "anchors": ["chain/chain.go: ProcessBlock", "consensus/proof.go: ToDifficulty", "consensus/difficulty.go: FromHash"]}
{"id": "C92", "title": "A new connection starts where the handshake ends", "statement": "When NewPeer returns a peer, the peer's Info is what the remote side announced in its shake (version 1, capabilities, total difficulty, user agent), and every message the remote side sends after the shake reaches the peer's read loop, none lost and none altered.", "quantifier": "all addresses, all byte streams the remote side may send, all shakes, all sequences of well-formed frames behind the shake", "why_tests_cant": "The handshake reads from the socket and the read loop continues on the same stream; whether bytes are lost or doubled at the seam depends on the content and length of every field of the remote side's frames.", "anchors": ["p2p/peer.go: NewPeer", "p2p/handshake.go: shakeByHand", "p2p/protocol.go: ReadMessage", "p2p/peer.go: readHandler"]}
{"id": "C93", "title": "A failed connection attempt leaves nothing open", "statement": "When NewPeer returns an error, the TCP connection it may have opened is closed.", "quantifier": "all addresses, all ways the dial and the remote side can behave", "why_tests_cant": "Every way of failing at every point of the handshake has to be covered, for every input of the remote side.", "anchors": ["p2p/peer.go: NewPeer", "p2p/handshake.go: shakeByHand"]}
{"id": "C94", "title": "An accepted peer is served like a dialled one", "statement": "A peer made by AcceptNewPeer is described by the hand it sent, is not ourselves, and its messages are handled like those of a peer made by NewPeer.", "quantifier": "all byte streams, all first messages of all kinds", "why_tests_cant": "It ranges over every kind and content of the first message on an accepted connection.", "anchors": ["p2p/peer.go: AcceptNewPeer", "p2p/handshake.go: handByShake", "p2p/sync.go: ProcessMessage"]}
{"id": "C95", "title": "Requests on a connection are answered in order", "statement": "What the node sends on a connection because of the messages received there is, in this order, exactly one Pong with the chain's state per Ping, one list of at most 256 addresses per address request, the headers of C50 per locator, the stored block per block request (nothing for an unknown one), and otherwise nothing but relays of received blocks; all messages found by the read loop are answered unless handling one of them does not end, and a connection that carries only pings, pongs, single headers, address lists and requests is answered completely.", "quantifier": "all byte streams on the connection, all lengths, all interleavings with other goroutines that keep the table's entries, all chains and storages", "why_tests_cant": "The answers depend on the whole prefix of the conversation and on what other connections do in between.", "anchors": ["p2p/peer.go: readHandler", "p2p/sync.go: ProcessMessage", "chain/chain.go: GetBlockHeaders", "chain/chain.go: GetBlock"]}
{"id": "C96", "title": "Messages only touch the sender's own record", "statement": "After any history of messages from any peers the chain, the storage, the memory pool and the set of connected peers are as before; no entry of the peer table has been removed or belongs to another connection, at most 10001 entries exist, entries are added only for addresses that were told in an address list, and an entry is unchanged unless one of the senders has it as its address or remote address.", "quantifier": "all nodes, all histories of any length of messages of any kind from any number of senders", "why_tests_cant": "It is an invariant over histories of unbounded length with messages of every kind in every order.", "anchors": ["p2p/sync.go: ProcessMessage", "p2p/pool.go: Add", "p2p/pool.go: Ban", "p2p/pool.go: PeerInfo"]}
{"id": "C97", "title": "A request brings the answer back", "statement": "When one node sends requests (ping, addresses, headers, block by hash) to another node that knows it, the other node answers exactly these, in order, and the asking node finds exactly the answers in the bytes that come back. In particular a ping brings the other node's total difficulty and height, a request for headers after a known block brings the up to 512 headers following it, and a request for a stored block brings a block with that hash and the stored contents.", "quantifier": "all lists of requests, all contents of the other node's storage, all things other connections do to the other node meanwhile", "why_tests_cant": "needs every combination of request, stored chain and interleaved activity of other peers, through serialisation, framing, dispatch and back", "anchors": ["p2p/peer.go: SendPing, SendBlockRequest, SendHeaderRequest, readHandler, writeHandler", "p2p/sync.go: Syncer.ProcessMessage", "chain/chain.go: GetBlockHeaders, GetBlock"]}
{"id": "C98", "title": "Accepted blocks respect the weight limit", "statement": "A block that passes validation has a weight (1 per input, 10 per output, 2 per kernel) of at most MaxBlockWeight = 80000.", "quantifier": "all blocks", "why_tests_cant": "no finite set of blocks shows that no overweight block is accepted", "anchors": ["consensus/consensus.go: MaxBlockWeight, BlockInputWeight, BlockOutputWeight, BlockKernelWeight", "consensus/block.go: Block.Validate"]}
{"id": "C99", "title": "Blocks of legal weight can be sent", "statement": "The serialised size of a block is determined by its parts, and every well-formed block within the weight limit fits into a message, so that it arrives when it is sent.", "quantifier": "all well-formed blocks of weight at most 80000", "why_tests_cant": "the size limit and the weight limit are independent constants; that one implies the other must hold for every mix of inputs, outputs, kernels and proof lengths", "anchors": ["consensus/block.go: Block.Bytes", "p2p/peer.go: readHandler", "consensus/consensus.go: MaxBlockWeight", "p2p/peer.go: SendBlock"]}
{"id": "C100", "title": "A connection may break at any byte", "statement": "When the connection breaks after any number of bytes, the remote side handles exactly the messages whose frames got through completely, in order, and nothing else; WriteMessage reports success exactly for those; the bytes counted as sent are the bytes counted as received; and the read loop of the remote side ends.", "quantifier": "all sequences of messages the remote side accepts, all bodies up to the size limit and all points at which the connection breaks", "why_tests_cant": "the break may come at any byte: within a header, within a body, within the buffer of the writer or between two flushes of it", "anchors": ["p2p/protocol.go: WriteMessage", "p2p/messages.go: Header.Write", "p2p/peer.go: writeHandler", "p2p/peer.go: readHandler"]}
{"id": "C101", "title": "A relayed block arrives whole at every peer", "statement": "When one block is sent to several peers at the same time, every peer that gets it receives a message that decodes to a block with the inputs, outputs and kernels of the original.", "quantifier": "all blocks, all numbers of peers, all sorting algorithms behind sort.Sort and all schedules of the write goroutines", "why_tests_cant": "the damage needs particular interleavings of the goroutines' loads and stores", "anchors": ["p2p/pool.go: PropagateBlock", "p2p/peer.go: writeHandler", "consensus/block.go: Block.Bytes, InputList, OutputList, TxKernelList"]}
{"id": "C102", "title": "A genesis block starts its chain and is valid", "statement": "Every predefined genesis block is at height 0 with an empty body, has the network's starting time, total difficulty and nonce, a proof of 42 ascending nonces and otherwise a header of zeros; a chain on an empty storage starts there; and the node's own Validate accepts it.", "quantifier": "the predefined genesis blocks, all storages without blocks, all clocks and all external code", "why_tests_cant": "validity depends on the clock and on the hash functions plugged in", "anchors": ["chain/chain.go: Testnet1, Testnet2, Testnet3, Testnet4, Mainnet, New", "consensus/block.go: Block.Validate, BlockHeader.Validate"]}
{"id": "C103", "title": "A call that sends to a peer returns", "statement": "Every call that sends a message to a connected peer returns, whatever the remote peer does, and the messages waiting for one peer are bounded.", "quantifier": "all states of a peer object, all remote behaviours including one that stops reading, all schedules and all numbers of concurrent callers", "why_tests_cant": "a call that waits for ever differs from a slow one only in the limit", "anchors": ["p2p/peer.go: WriteMessage, writeHandler, SendBlock, SendPing, SendBlockRequest", "p2p/pool.go: PropagateBlock"]}
{"id": "C104", "title": "A block is sent to a peer at most once", "statement": "However often a block arrives, the node relays it to each connected peer at most once.", "quantifier": "all blocks, node states, connected peers and numbers of copies received", "why_tests_cant": "it is about every history of received messages", "anchors": ["p2p/sync.go: ProcessMessage", "p2p/pool.go: PropagateBlock"]}
{"id": "C105", "title": "One silent peer does not stop the pool", "statement": "Whatever one remote peer does or does not do, the pool goes on dialling the other addresses it knows, and Stop ends it.", "quantifier": "all pool states, addresses, behaviours of the remote and schedules of the pool's goroutines", "why_tests_cant": "it is about every schedule and every further step after a remote that never answers", "anchors": ["p2p/pool.go: Run, connectPeer, Stop", "p2p/peer.go: NewPeer", "p2p/handshake.go: shakeByHand"]}
{"id": "C106", "title": "Addresses told by peers are kept and told on unchanged", "statement": "An IPv4 address and port that a peer tells the node is entered in its table, unless the port is 0, the address is multicast or the table is full. Different addresses are different entries, nothing else is entered or changed, and an entry is dialled and told on as exactly the address and port that was told.", "quantifier": "all IPv4 addresses, ports, pool states and lists of addresses in a message", "why_tests_cant": "2^48 addresses, and every state of the table", "anchors": ["p2p/sync.go: ProcessMessage", "p2p/pool.go: Add, Peers", "p2p/helpers.go: TCPAddr codec"]}
{"id": "C107", "title": "The remote address of a dialled peer is the address it is known by", "statement": "In the shipped node, after every history, every address in the peer table can be told to others, and the remote address of a connection dialled to it reads as that address, so that a ban meets the right entry.", "quantifier": "all histories of messages, dials and disconnects of the node that cmd/node starts", "why_tests_cant": "it is about every history and every address a peer can send", "anchors": ["cmd/node/main.go: main", "p2p/pool.go: Ban, Peers", "p2p/peer.go: NewPeer", "p2p/sync.go: ProcessMessage"]}
{"id": "C108", "title": "Printed hashes and ids identify what they print", "statement": "Two hashes, short ids or commitments with the same printed form are equal, and the printed form read as hexadecimal gives the bytes back; features print as Coinbase exactly when they are the coinbase flag.", "quantifier": "all byte strings of any length and all feature bytes", "why_tests_cant": "unbounded lengths and values", "anchors": ["consensus/id.go: Hash.String, ShortID.String", "consensus/block.go: OutputFeatures.String, KernelFeatures.String", "secp256k1zkp/pedersen.go: Commitment.String"]}
{"id": "C109", "title": "What the pool records about a peer is what the peer told", "statement": "After every history, the recorded version, difficulty and capabilities of a peer are those of the last handshake with it that succeeded; height and difficulty change after that only with messages from a connection to it; before the first handshake nothing is recorded, and no event about another peer changes the record.", "quantifier": "all reachable pool states, shakes, steps of all goroutines, and addresses", "why_tests_cant": "it is about every history and interleaving", "anchors": ["p2p/pool.go: connectPeer, Add, Ban, PropagateBlock", "p2p/peer.go: NewPeer", "p2p/sync.go: ProcessMessage"]}
{"id": "C110", "title": "A node that hears of more work adopts it", "statement": "When peers tell a node of blocks with more total difficulty than its head, it asks for what it lacks, and its head, height and total difficulty follow; they never fall.", "quantifier": "all nodes and all histories of messages from any senders", "why_tests_cant": "it is about every history of messages", "anchors": ["p2p/sync.go: ProcessMessage", "chain/chain.go: ProcessBlock, ProcessHeaders"]}
{"id": "C111", "title": "The two ends of a connection know each other's state", "statement": "After the ping and pong that open a connection, each end has recorded height and total difficulty of the other end's chain.", "quantifier": "all pairs of nodes, chains, tables and handshakes", "why_tests_cant": "it relates every state of one node to the record of another, through the wire", "anchors": ["p2p/peer.go: SendPing", "p2p/sync.go: ProcessMessage", "p2p/pool.go: connectPeer"]}
{"id": "C112", "title": "Refusing a block is an error, not a crash", "statement": "ProcessBlock, given any block read from the wire and any storage, and ProcessHeaders, given any headers read from the wire, return, with or without an error; they do not panic and do not end the process.", "quantifier": "all blocks and header lists that the decoder accepts, all chains and storages", "why_tests_cant": "a test tries chosen blocks; the claim is about every block a peer could send on top of every stored block", "anchors": ["chain/chain.go: ProcessBlock, ProcessHeaders", "consensus/difficulty.go: FromHash", "consensus/block.go: Validate"]}
{"id": "C113", "title": "A node describes itself truthfully when it connects", "statement": "The hand and the shake a node sends name its protocol version, its program, its total difficulty, its address and the genesis block of the chain it is on.", "quantifier": "all chains, nonces, addresses and whatever the other side sends", "why_tests_cant": "it relates every state of the node to the bytes it sends", "anchors": ["p2p/handshake.go: shakeByHand, handByShake", "cmd/node/main.go: main"]}
{"id": "C114", "title": "A serialised commitment can be read back", "statement": "Reading the bytes of a commitment, with anything behind them, gives that commitment and leaves what is behind it in the stream.", "quantifier": "all commitments, streams and receivers", "why_tests_cant": "it ranges over every commitment and over what the receiver held before", "anchors": ["secp256k1zkp/pedersen.go: Commitment.Bytes, Commitment.Read"]}
{"id": "C115", "title": "Relaying a block starts one check per connected peer and sends at most once", "statement": "Whatever else happens in the pool meanwhile, a call to relay a block looks once at each address connected at the call, sends the block to no address and over no connection twice, sends only over a connection made to that address, and every check not yet finished can go on without a nil connection being used. If nothing else happens meanwhile, it sends to exactly the connected peers whose record is behind the block.", "quantifier": "all histories of the pool, blocks, numbers of relays under way and interleavings of the goroutines", "why_tests_cant": "the goroutines of a relay run with no lock beside every other goroutine of the pool", "anchors": ["p2p/pool.go: PropagateBlock"]}
{"id": "C116", "title": "Relaying a block leaves out no peer known to be behind", "statement": "A peer whose recorded height or total difficulty is below that of the block from the call on is not left out when the block is relayed.", "quantifier": "all histories of the pool, blocks and interleavings of the goroutines", "why_tests_cant": "it depends on what is written between two reads of the record in a goroutine", "anchors": ["p2p/pool.go: PropagateBlock", "p2p/peer.go: readHandler"]}
{"id": "C117", "title": "A signature is accepted exactly when the Schnorr equation holds", "statement": "SignMessage returns (k·G, k + e·x) with e the SHA-256 hash of nonce abscissa, compressed key and message as a big-endian number, and VerifySignature accepts (R, s) under P if and only if s·G = R + e·P.", "quantifier": "all keys, nonces, messages and signatures", "why_tests_cant": "it is an equivalence over all signatures; tests only see signatures made by the program itself", "anchors": ["secp256k1zkp/schnorr.go: SignMessage, VerifySignature, CompressPubkey, ComputeHash"]}
{"id": "C118", "title": "WaitForDisconnect returns after the end of the connection", "statement": "When WaitForDisconnect returns, the connection is closed and the peer's goroutines do nothing any more: no further message is read, handled or written, whatever is called.", "quantifier": "all schedules of the handlers and of any number of callers, all messages", "why_tests_cant": "all interleavings", "anchors": ["p2p/peer.go: WaitForDisconnect, Disconnect, readHandler, writeHandler"]}
{"id": "C119", "title": "A place in the pool is passed on only after the connection is finished", "statement": "When the pool marks the address of a connection as disconnected, and so before it gives the connection's place to another one, nothing is read, handled or written on the connection any more, and this stays so whatever the node does afterwards.", "quantifier": "all schedules of the run loop, of all connections' read and write handlers, of the goroutines that wait for them, of bans, relays and the closing goroutines; all remote behaviours; any number of connections", "why_tests_cant": "all interleavings of an unbounded number of goroutines", "anchors": ["p2p/pool.go: Run, connectPeer, Ban, Stop", "p2p/peer.go: Start, readHandler, writeHandler, Disconnect, WaitForDisconnect"]}
{"id": "C120", "title": "An accepted message goes out", "statement": "While nobody disconnects a peer and writing to its connection does not fail, every message that WriteMessage (or one of the Send methods) has accepted is written completely: the write handler always has something to do until then, waits for the remote side only with bytes in hand that it may take, and needs at most one move more than the message has bytes, whatever else happens.", "quantifier": "all schedules of the handlers and of any number of callers, all messages, all ways the connection takes the bytes in pieces", "why_tests_cant": "it is a liveness property over all interleavings and all sizes of the pieces", "anchors": ["p2p/peer.go: WriteMessage, writeHandler, readHandler"]}
{"id": "C121", "title": "An ended connection gives its place back", "statement": "Once a connection of the pool is being closed, by the remote side, by an error or by this node, its place among the 15 is given back for another one. This happens without any further help from the remote side or from callers of the pool.", "quantifier": "all schedules of the pool's loop, of the goroutines of all connections and of all callers; all states of the connection at the moment it ends, also in the middle of connectPeer", "why_tests_cant": "the place is given back by a chain of goroutines waiting for each other; whether they can wait forever depends on all interleavings", "anchors": ["p2p/pool.go: connectPeer, Run, Ban", "p2p/peer.go: Disconnect, WaitForDisconnect, WriteMessage, readHandler, writeHandler"]}
{"id": "C122", "title": "A peer sees frames of messages: the answers to its requests in order, and what was sent to it, nothing else", "statement": "At every moment the bytes written to a connection are complete frames of messages, one after the other, followed by at most a part of one more frame. The messages are those the node's own goroutines asked to send and the answers to what came in on this connection: one answer per request, in the order of the requests, with the content C50, C54 and C95 describe. Every message that was read has been handled, except at most the last one (being handled, or the one for which the connection is being closed), and every answer has been taken over for writing, except at most the last one (waiting for the writer, or the connection is being closed). What a remote read loop makes of the bytes are the first of these messages.", "quantifier": "all byte sequences arriving in any pieces, all schedules of the read handler, the write handler and any number of other goroutines that send or close, all changes other connections make to the node meanwhile short of removing table entries, connections that break or take bytes in pieces", "why_tests_cant": "The bytes depend on how the read handler, the writer and other senders interleave and on where the connection breaks or is closed; a test sees one interleaving and one stream.", "anchors": ["p2p/peer.go: Peer.readHandler, Peer.writeHandler, Peer.WriteMessage, Peer.Disconnect", "p2p/sync.go: Syncer.ProcessMessage", "p2p/protocol.go: WriteMessage, ReadMessage"]}
{"id": "C123", "title": "Every complete request gets its answer, and the node comes to rest", "statement": "When nothing more comes in on a connection, no other goroutine makes a call and the remote side takes what is written to it, the work on the connection ends after finitely many steps, whatever the schedule. At that point, unless the process has ended or the connection was closed, every complete well-formed frame that came in has been read and handled, every answer has been written completely, no call of WriteMessage waits, and what is unread begins with no complete well-formed frame. If the connection was closed, both handlers have ended and every call has returned, unless the read loop is closing its own connection out of a ban.", "quantifier": "all byte sequences that came in, all nodes, all histories of the connection and of the rest of the program up to the moment from which on nothing more comes in, all schedules and all ways the connection takes the bytes in pieces from there on", "why_tests_cant": "it is a liveness property: a request could be left unanswered, or two goroutines could wait for each other, in one interleaving of the read handler, the write handler and the callers only", "anchors": ["p2p/peer.go: readHandler, writeHandler, WriteMessage, Disconnect", "p2p/sync.go: ProcessMessage"]}
{"id": "C124", "title": "What a peer sees of the whole node", "statement": "Whatever bytes come in on all connections of the node, what it writes on one connection is a sequence of frames. Among the messages in them there is at most one ping and, after it, at most one request for addresses. All others are answers to the messages that came in on this same connection, in their order and with none left out except those at the end that are still being handled or written, or blocks that came in before on some connection of the node and have the height of its chain. The answers are those that the chain and the storage with which the node was started give; nothing that comes in changes them.", "quantifier": "all byte sequences on any number of connections, all addresses told, all connections made and ended, all schedules of the loop of the pool, of the handlers of all connections and of the goroutines started by them, up to the moment at which the process ends", "why_tests_cant": "answers and relayed blocks of all connections meet in goroutines that run at the same time, and a message could end up on the wrong connection, twice or in the wrong order in one interleaving only", "anchors": ["p2p/pool.go: Run, connectPeer, PropagateBlock, Ban, Stop", "p2p/peer.go: readHandler, writeHandler, WriteMessage", "p2p/sync.go: ProcessMessage"]}
{"id": "C125", "title": "A node does not multiply blocks", "statement": "On one connection a node sends a block without having been asked for it no more often than that block came in, counted over all connections there have been, with the height of the node's chain. This holds with several connections to the same address one after the other and with the same block coming in again.", "quantifier": "all byte sequences on any number of connections, all connections made and ended, all schedules of the loop of the pool, of the handlers of all connections and of the goroutines that send blocks on, up to the moment at which the process ends", "why_tests_cant": "a second copy would be made in an interleaving of goroutines that were started for different copies of a block and look at the table of peers while connections to the same address end and are made again; floods between nodes need this to hold in all of them", "anchors": ["p2p/pool.go: PropagateBlock, connectPeer", "p2p/sync.go: ProcessMessage", "p2p/peer.go: SendBlock, WriteMessage, writeHandler"]}
{"id": "C126", "title": "An accepted block reaches every peer that is behind", "statement": "When a node has handled a block that came in, has accepted it and the block has the height of the node's chain, then for every address that is connected at that moment and whose record keeps showing a smaller height (or keeps showing a smaller total difficulty) the block gets handed to a connection to that address: until this has happened there is a goroutine for it that can go on whatever the rest of the program does and that needs at most three steps. What was handed over is accepted for sending unless the connection is closed before.", "quantifier": "all byte sequences on any number of connections, all blocks, all moments of handling, all runs of the whole program from there on", "why_tests_cant": "the goroutines read the table one field at a time while other goroutines write to it and connections to the same address end and are made again; a lost block shows up in single interleavings", "anchors": ["p2p/sync.go: ProcessMessage", "p2p/pool.go: PropagateBlock, connectPeer", "p2p/peer.go: SendBlock, WriteMessage"]}
{"id": "C127", "title": "The whole node gets done with everything that came in", "statement": "If nothing more comes from outside, the connections take what is written to them and the pool makes no further attempt to connect, then the work of the whole node, over all its connections at once, comes to an end in every schedule. At the end, unless the process has ended: a connection that was closed has ended with all its goroutines, unless its read loop is in Ban or a goroutine of Stop holds the lock its read loop needs; on every other connection all accepted messages have been written in whole frames, no call of WriteMessage waits, and unless its read loop is in Ban every complete well-formed frame that came in before the first malformed one was handled and answered; every goroutine of PropagateBlock has ended. A block that was accepted has been written to every connected peer whose record stays behind, or the connection to it was closed.", "quantifier": "all reachable states of the whole program with any number of connections and goroutines, all byte sequences on all connections, all schedules", "why_tests_cant": "a deadlock or a lost wake-up between the loop of the pool, the handlers of all connections, the goroutines of PropagateBlock and the locks of the table shows up in single interleavings only", "anchors": ["p2p/pool.go: Run, connectPeer, PropagateBlock, Ban", "p2p/peer.go: readHandler, writeHandler, WriteMessage, Disconnect, WaitForDisconnect", "p2p/sync.go: ProcessMessage"]}
{"id": "C128", "title": "The whole conversation with a peer, from the first byte", "statement": "All bytes that a peer at an IPv4 address gets to see on a connection that the node opens are the frame of one hand (version 1, full node, total difficulty 1, sender 0.0.0.0:0, the address of the peer, \"gringo v0.0.1\", the genesis hash, and the nonces of the list in turn) and after it whole or one begun frame of messages; nothing but the hand is written, nothing that comes in is handled and the connection is in no table before the whole hand was written and a shake of version 1 with a 32-byte genesis hash was read. All bytes that came in are then the frame of that shake, the frames that were handled, and what is not read yet; no byte that comes with the shake is lost. What the table of peers says about an address was said by somebody on a connection to that address: version and capabilities in the shake, total difficulty and height together in the shake, a ping, a pong or a block. The work comes to an end in every schedule, and then a handshake waits for nobody but the peer, and every other conversation is complete as in C127.", "quantifier": "all reachable states of the whole program with its handshakes, any number of connections, all byte sequences on all connections cut anywhere, all schedules", "why_tests_cant": "the bytes of a handshake and of the messages after it may come in one piece or be cut anywhere, while other connections are served; a byte lost between the two readers, or a message handled or written too early, shows up in single interleavings and cuts only", "anchors": ["p2p/peer.go: NewPeer, Start", "p2p/handshake.go: shakeByHand", "p2p/pool.go: connectPeer", "p2p/server.go: nonceList", "p2p/sync.go: ProcessMessage"]}
{"id": "C129", "title": "No peer can end the process", "statement": "The process of the shipped node (chain of Testnet1, nothing stored, no pool of transactions, peers added by their IPv4 addresses) goes on whatever any of its peers send, from the first byte of any connection on, however the bytes are cut and whatever else goes on; nobody is banned and every peer is served as long as all peers stick to the protocol.", "quantifier": "all reachable states of the shipped program with its handshakes, any number of connections and peers, all byte sequences on all connections cut anywhere, all schedules", "why_tests_cant": "the process is ended by a panic in any goroutine; that none of the decoders, handlers, bans, closers and writers panics for any bytes in any interleaving with any number of peers cannot be tried out", "anchors": ["cmd/node/main.go: main", "p2p/peer.go: NewPeer, readHandler, writeHandler", "p2p/handshake.go: shakeByHand", "p2p/sync.go: ProcessMessage, Ban", "p2p/handshake.go: shake.Read", "consensus/block.go: CompactBlock.Read", "consensus/transaction.go: Transaction.Read"]}
{"id": "C130", "title": "What one peer is answered does not depend on the others", "statement": "Take two runs of nodes with the same chain, with any other peers, any network and any schedule, and one connection of each. If what came in on the one connection begins with what came in on the other, then the answers sent on the two are the same, one by one, as far as both go, except that lists of addresses may differ. If exactly the same has come in, and both nodes have nothing left to do, all answers have been written and are the same, and the two peers have been told the same about the chain.", "quantifier": "all pairs of executions of the whole program (any number of peers, any bytes from them, any interleaving and timing), all pairs of connections", "why_tests_cant": "It compares two executions: a test runs a few pairs of them, with peers and schedules of its own choice; any message of any other peer, at any moment, might change an answer.", "anchors": ["p2p/sync.go: ProcessMessage", "p2p/peer.go: Peer.readHandler, Peer.writeHandler", "p2p/pool.go: peersPool.Run", "chain/chain.go: Chain.GetBlockHeaders, Chain.GetBlock, Chain.ProcessBlock"]}
{"id": "C131", "title": "Stop leaves nothing behind", "statement": "When Stop was called and the work of the node has come to rest, every connection is over: its socket was closed, its place was given back and all its goroutines have ended; and all goroutines of Stop have ended.", "quantifier": "all reachable states of the whole program, any number of connections and goroutines, every moment at which Stop is called, all schedules", "why_tests_cant": "whether Stop gets done depends on what every read loop, writer and relay of every connection is doing at the moment it takes each lock; a test meets a few of these moments", "anchors": ["p2p/pool.go: Run, Stop", "p2p/peer.go: Close, Disconnect, readHandler", "p2p/sync.go: ProcessMessage, Stop"]}
{"id": "C132", "title": "What waits for a peer that does not read is bounded", "statement": "However little a connected peer reads, the messages that wait to be sent to it, each with a goroutine of its own, stay within a bound that does not depend on what the other peers send.", "quantifier": "all reachable states of the whole program, all messages on all connections, any number of them, all schedules", "why_tests_cant": "how much piles up depends on the whole history of all the other connections and on how the goroutines are scheduled; a test sends a few messages", "anchors": ["p2p/sync.go: ProcessMessage", "p2p/peer.go: WriteMessage, SendBlock, writeHandler", "p2p/pool.go: PropagateBlock"]}
{"id": "C133", "title": "What a peer is sent is in proportion to what came in", "statement": "On any connection the node writes no more bytes than a fixed greeting, the blocks of the right height that came in on all connections (each as often as it came in), and a fixed multiple of the bytes that came in on that connection.", "quantifier": "all reachable states of the whole program with the shipped storage, all bytes on all connections, all addresses, all schedules", "why_tests_cant": "the amount written depends on the whole history of all connections; a test sees a few exchanges and cannot show that no sequence of requests makes the node send more", "anchors": ["p2p/protocol.go: WriteMessage", "p2p/sync.go: ProcessMessage", "p2p/pool.go: Peers, PropagateBlock, connectPeer", "p2p/helpers.go: serializeTCPAddr", "p2p/handshake.go: shakeByHand", "storage/mysql.go: SqlStorage"]}
{"id": "C134", "title": "A relayed block dies out", "statement": "When nodes that are connected with each other relay a block, each to its peers, the block stops being sent after finitely many deliveries, and no node is sent it over and over again.", "quantifier": "all numbers of nodes, all ways to connect them, all blocks, all schedules of the goroutines that relay, all losses of messages and all that else happens in the nodes", "why_tests_cant": "whether a block comes back depends on the shape of the whole network and on the order in which the copies travel; a test has two or three nodes and one order", "anchors": ["p2p/sync.go: ProcessMessage", "p2p/pool.go: PropagateBlock", "p2p/peer.go: SendBlock", "chain/chain.go: ProcessBlock"]}
{"id": "C135", "title": "A block reaches every node", "statement": "When a node sends a block to all its peers and no message gets lost, every node of the network that is connected with it, over however many others, has got the block when the network has come to rest.", "quantifier": "all numbers of nodes, all ways to connect them, all blocks that the nodes accept, all schedules of the goroutines that relay", "why_tests_cant": "whether a copy arrives at a far node depends on what every node on the way knows of its peers at the moment its goroutines look; a test has a few nodes and one order", "anchors": ["p2p/sync.go: ProcessMessage", "p2p/pool.go: PropagateBlock", "p2p/peer.go: SendBlock", "chain/chain.go: ProcessBlock"]}
{"id": "C136", "title": "The peer tables survive concurrent use", "statement": "Whatever the goroutines of the node and the callers of its API do at the same time (Run, Add, Ban, IsBan, Peers, PeerInfo, PropagateBlock, messages of any number of peers, ends of connections), no two goroutines access the table of peers, the table of connected peers or the list of banned peers at the same time, so Go's check for concurrent map access never ends the process.", "quantifier": "all numbers of goroutines, connections and callers, all schedules", "why_tests_cant": "the runtime notices a concurrent access only when the two really coincide; a test runs a few schedules, and the number of goroutines is not bounded", "anchors": ["p2p/pool.go: peersPool, Ban, IsBan, Add, Peers, PeerInfo, PropagateBlock, connectPeer, Run, notConnected", "p2p/sync.go: ProcessMessage", "p2p/peer.go: readHandler"]}
{"id": "C137", "title": "The node has no data races", "statement": "Whatever the goroutines of the node and the callers of its API do at the same time, no two of them access the same field of a peer's record, the number of connections, the state of the chain, the nonces or the lists of a block at the same time with one of them writing.", "quantifier": "all numbers of goroutines, connections and callers, all schedules", "why_tests_cant": "a race detector reports only the races of the schedules it happens to see, and cannot show that a field has none", "anchors": ["p2p/pool.go: peerInfo, Ban, Peers, PropagateBlock, connectPeer, Run", "p2p/sync.go: ProcessMessage", "p2p/server.go: NextNonce", "consensus/block.go: Bytes", "chain/chain.go: Height, TotalDifficulty, Head"]}
{"id": "C138", "title": "The locks do not deadlock", "statement": "No goroutine waits for a lock that it holds itself, no ring of goroutines waits for each other's locks, every lock that is taken is given back by the goroutine that took it, and no goroutine ends while it holds a lock.", "quantifier": "all numbers of goroutines, connections and callers, all schedules", "why_tests_cant": "a deadlock needs goroutines that stop at particular places at the same time; a test that does not hang shows nothing about other schedules", "anchors": ["p2p/pool.go: Ban, IsBan, Add, Peers, PeerInfo, PropagateBlock, connectPeer, Run, notConnected", "p2p/sync.go: ProcessMessage"]}
{"id": "C139", "title": "Printed messages identify themselves", "statement": "Two messages (Ping, Pong, GetPeerAddrs, PeerAddrs, GetBlock, GetBlockHeaders) for which String returns the same text are of the same kind and have the same contents.", "quantifier": "all messages of these kinds, with all contents, lists of any length", "why_tests_cant": "that no two of infinitely many messages print alike cannot be seen from examples", "anchors": ["p2p/messages.go: Ping.String, GetPeerAddrs.String, PeerAddrs.String, GetBlock.String, GetBlockHeaders.String", "p2p/messages.go: Pong"]}
{"id": "C140", "title": "Every known address is tried", "statement": "An address that was added and never tried is dialled after the loop has dialled a bounded number of times, whatever the other addresses do; an address to which a connection failed is tried again.", "quantifier": "all reachable states of the pool, all schedules, all orders of the map, all behaviours of the peers", "why_tests_cant": "the choice depends on the order of a map and on what all peers do, for an unbounded time; a test sees one finite run", "anchors": ["p2p/pool.go: Run, notConnected, connectPeer"]}
{"id": "C141", "title": "Every peer is listed once", "statement": "A text is taken as an address only if it is four decimal numbers of at most 255 and a port of at most 65535 (or a name that the resolver knows), and it stands for the address with these numbers. No two entries of the table are the same address and port.", "quantifier": "all texts, all histories of messages and of calls of Add", "why_tests_cant": "there are infinitely many texts and histories", "anchors": ["p2p/pool.go: Add", "p2p/sync.go: ProcessMessage"]}
{"id": "C142", "title": "A chain can be fetched from a node that has it", "statement": "Whoever knows one block of a node's chain and asks for the headers after it, then for those after the last header that came, and so on, gets the headers of all following blocks, in order and once, with one request for each 512 headers begun and one more; asked for by the hashes of these headers, all the blocks come. Every stored block is found by its hash, its height and both.", "quantifier": "all chains of any length, all blocks to start from, all schedules of other peers' messages", "why_tests_cant": "the number of requests grows with the chain, and chains are unbounded; a test fetches a few chains", "anchors": ["chain/chain.go: GetBlockHeaders, GetBlock, GetBlockID, New", "p2p/sync.go: ProcessMessage", "p2p/peer.go: SendHeaderRequest, SendBlockRequest", "storage/mysql.go: SqlStorage"]}
{"id": "C143", "title": "One host does not take all places", "statement": "No two of the node's connections are with the same address and port, and no single host holds all places for connections while the node knows addresses of others.", "quantifier": "all histories of additions of addresses, all schedules, all behaviours of the peers", "why_tests_cant": "it depends on the texts under which addresses are added and on the order in which the loop chooses, over all histories", "anchors": ["p2p/pool.go: Add, Run, notConnected, connectPeer"]}
{"id": "C144", "title": "A restart resumes where the node was", "statement": "Whenever the process ends, at any point of its run, and is started again, it has the head, height and total difficulty it had, still has the blocks it accepted and the addresses it learned, and does not connect to a peer it had banned.", "quantifier": "all histories of calls and messages, all crash points, all schedules", "why_tests_cant": "the process can end at every point of every history and schedule; a test stops it at a few", "anchors": ["chain/chain.go: New, ProcessBlock", "storage/mysql.go", "p2p/pool.go: Ban, connectPeer", "cmd/node/main.go"]}
{"id": "C145", "title": "A node goes on learning addresses", "statement": "As long as the node runs, an address that a peer tells it enters the peer table, whatever other peers have told before.", "quantifier": "all histories of messages from all peers", "why_tests_cant": "it depends on everything that was told before, over histories of any length", "anchors": ["p2p/pool.go: Add", "p2p/sync.go: ProcessMessage", "p2p/messages.go: PeerAddrs"]}
{"id": "C146", "title": "Blocks are passed on in the order in which they came", "statement": "When the node passes on one block and then another one, a connected peer that is behind both is handed the first one before the second one.", "quantifier": "all histories of the pool, all pairs of calls, all schedules of the goroutines that send", "why_tests_cant": "the order depends on how the goroutines of the two calls are scheduled; a test sees one schedule", "anchors": ["p2p/pool.go: PropagateBlock", "p2p/peer.go: SendBlock"]}
{"id": "C147", "title": "Coinbase outputs are spent only when they are mature", "statement": "When a block is accepted and one of its inputs spends the coinbase output of another block, it is at least 1000 blocks higher than that block.", "quantifier": "all chains, storages, accepted blocks and outputs", "why_tests_cant": "it must hold for every pair of blocks; a test tries a few", "anchors": ["consensus/consensus.go: CoinbaseMaturity", "consensus/block.go: Validate", "chain/chain.go: ProcessBlock"]}
{"id": "C148", "title": "An output exists once", "statement": "No accepted block creates an output with a commitment that another of its outputs, or an output of a stored block, has.", "quantifier": "all chains, storages, accepted blocks and outputs", "why_tests_cant": "it must hold for every block against everything before it; a test tries a few", "anchors": ["consensus/block.go: Validate, verifySorted", "chain/chain.go: ProcessBlock"]}
{"id": "C149", "title": "Transactions are passed on", "statement": "A transaction that a node takes from one peer is sent to the other peers it is connected to.", "quantifier": "all histories of all connections, all pools of transactions and all transactions", "why_tests_cant": "it must hold for every history of every connection; a test drives a few", "anchors": ["p2p/sync.go: ProcessMessage", "p2p/peer.go: SendTransaction", "p2p/pool.go: PropagateBlock"]}
{"id": "C150", "title": "A peer is told what it did wrong", "statement": "When a node ends a connection because of what came in on it, or bans the peer, it sends an error message or the reason of the ban first; and it reads such messages when they come from a peer.", "quantifier": "all histories of all connections and all schedules; all streams of frames", "why_tests_cant": "it must hold for everything that can come in on any connection; a test tries a few bad messages", "anchors": ["p2p/messages.go: PeerError", "consensus/network.go: MsgTypeError, MsgTypeBanReason", "p2p/peer.go: readHandler, writeHandler, Disconnect", "p2p/pool.go: Ban"]}
{"id": "C151", "title": "A connection ends only for a reason", "statement": "As long as the process runs, an open connection stays open and its handlers stay at work until an address is banned, the node is stopped, or the peer hangs up, the network fails or what came in cannot be read. Nothing else ends it: no message that is accepted, no answer, no block passed on, no other connection that comes or goes, and no length of silence.", "quantifier": "all runs of any length of the whole program from any state in which the connection is in use, with all schedules, messages and other connections", "why_tests_cant": "a connection must survive every interleaving of everything else that happens; a test watches a few connections for a short time", "anchors": ["p2p/peer.go: readHandler, writeHandler, Disconnect, Close", "p2p/pool.go: Run, Ban, PropagateBlock, Stop", "p2p/sync.go: ProcessMessage"]}
{"id": "C152", "title": "A peer that no longer answers is noticed", "statement": "As long as a connection is open the node pings the peer again and again, and a peer that does not answer loses its place.", "quantifier": "all runs of any length of the whole program, all open connections, all schedules", "why_tests_cant": "it is about every run however long; a test cannot wait for ever, and it cannot try everything that may go on beside the silent connection", "anchors": ["p2p/pool.go: connectPeer, Run", "p2p/peer.go: SendPing, readHandler, WaitForDisconnect", "p2p/sync.go: ProcessMessage"]}

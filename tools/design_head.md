# Formal model of altonen/emissary in Lean 4

## Approach

* `lean/Verif/Model/*.lean`: total, computable Lean functions that transcribe the Rust code function by
  function. Every definition cites the file and lines of `/repo` it models and says what was simplified.
* `lean/Verif/Lemmas/*.lean`: helper lemmas, not part of any claim.
* `lean/Verif/Props/*.lean`: the property theorems, one file per area, with the small specifications they are
  stated against. Beside each theorem an `example` shows that a concrete, non-trivial case meets its hypotheses.
* Where the code violates a property, its negation is proved (suffix `_violated`), for as many inputs as it is
  false for where that can be said, and the part that does hold is proved with the suffix `_partial`.
* `seeded/LOG.jsonl`: wrong programs that the theorems were tested against. The edits are in `seeded/*.json`.
* `tools/`: scripts that write `properties.jsonl`, `MANIFEST.json`, `AXIOMS.md` and this file.

### Modelling conventions

* Bytes are `UInt8`, buffers are `List UInt8`; fixed-width integers read from the wire are `Nat`, an `as u16`
  cast is `% 65536`. nom parsers are functions `List UInt8 → Option (α × List UInt8)` (the nom error value is
  collapsed to `none`).
* `&mut self` methods return the new state; panics and `Err(..)` are explicit values. `chk` says whether debug
  assertions and overflow checks are compiled in.
* Crypto, random numbers, clocks, channels and sockets are parameters of the model (functions, oracles or input
  events). What is assumed of them is a hypothesis of the theorem that uses it: for instance that decryption
  inverts encryption under the same key, or that X25519 commutes. No theorem assumes that a primitive is secure.
* `HashMap`, `BTreeMap`, `HashSet` and `BTreeSet` become association lists or functions. The iteration order of a
  hash map is a parameter wherever the result depends on it.
* A task that waits for several things is a step function over events; the events may come in any order, which
  includes every order the scheduler produces. A crash may happen between any two changes of the disk.

## Trusted base

* Lean 4.33.0's kernel, and Mathlib's lists and naturals as checked by it.
* The axioms `propext`, `Classical.choice` and `Quot.sound`; no theorem depends on another axiom. `AXIOMS.md`
  lists them for each theorem, as printed by `#print axioms`. There is no `sorry`, no `native_decide` and no
  axiom of our own.
* The reading of the Rust source that produced the model. The code was not built or run; every definition
  cites the lines it was read from, so that it can be compared with them.
* The behaviour that the model ascribes to the libraries it stands in for: the standard library's collections and
  strings, `nom`, `bytes`, the channels of `tokio`, `futures` and `thingbuf`, and the cited behaviour of `flate2`,
  `zip`, `toml`, `httparse`, `url` and `ethbloom`.

### Not modelled

* The cryptographic primitives themselves (`crypto/`, and the crates behind it), except for DSA verification, the
  nonces, the chaining modes, the Noise steps and the length obfuscation that are written in this repository.
* Runtimes and wakers (`runtime/`, `emissary-util/src/runtime/`): a waker that is never called shows as a step that
  never happens, which the safety theorems do not notice. Liveness is stated as "if it is polled".
* Metrics, logging, the layout and colours of the window (`emissary-cli/src/ui`), benchmarks and tests.
* Locks and memory ordering: the shared maps are changed in one step.
* Loss of data that was written to a file but not yet to the disk.
* `emissary-util/src/runtime/`: streams, clocks, metrics and `gzip` (listeners, datagram sockets and sets of tasks are modelled in `Runtime`), and the embedding in other programs.
* Parts of a modelled file that a module does not mention in its list of simplifications are modelled; what is left
  out is listed in the section on modules below.

## Plan: what is modelled for each property, and how it is proved

| Properties | Model | Proof |
|---|---|---|
| C01–C04 | `StreamRx`: `InboundContext::handle_packet` as a step function over (current, ready, pending, missing) | invariant relating the state to the set of received packets; prefix and completeness by induction over the delivery list |
| C05, C06 | `StreamTx`: packetize, acks, resend, and two endpoints joined by a lossy network | invariant by induction over operations |
| C07, C08 | `StreamRx`, `StreamPending` | refutation, and the theorem for in-order delivery |
| C09 | `Listener`: state machine of the listeners | invariant by induction over events; refutation by short histories |
| C10, C63–C67, C69, C70 | `StreamManager` with ghost numbers for streams | invariants over histories; two-party simulation for the handshake |
| C11 | `StreamPacket` | round trip; refutations for the fields that are lost |
| C12–C15, C46 | `TunnelData`: builder, parser, reassembler, layers | round trip composed with a permutation argument; induction over hops |
| C16–C31, C38, C57–C62, C73 | `I2np`, `Garlic`, `BuildRecord`, `Primitives`, `Ssu2Block`: codecs on byte lists | round trips and layout laws by structural induction |
| C32–C34, C68, C85–C89 | `Ntcp2`, `Ntcp2Handshake`: frame reader, length chain, Noise XK | segmentation independence by induction; lock-step simulation; agreement of transcripts |
| C35–C37, C39, C71, C72 | `Ssu2Active`: ack manager, fragment handler, duplicate filter | invariants by induction over inputs; refutation for the ack clamp |
| C74–C84 | `Ssu2Packet`, `Ssu2Handshake` | round trip of sealed packets; agreement of transcripts; timer bounds; refutations |
| C40–C42, C90 | `Netdb`: distance, buckets, tables | algebra on naturals; invariants over histories |
| C43–C45, C52, C53 | `Routing`, `TunnelBuild`: routing table, dispatcher, shutdown | invariants over histories, channels in a heap |
| C101–C107, C110, C111 | `TunnelBuild`: creating, answering and reading build messages | induction over the hops of the whole route |
| C47, C48, C113 | `Selector` | multiset counts; selection as a search with a completeness theorem |
| C49, C50, C108, C109, C112 | `Profile` | decision logic; refinement to the history of recorded events |
| C51, C124–C126 | `RoutingPath`: manager and handles with their queues | invariants over histories of both sides |
| C54–C56, C114–C123, C127 | `Ratchet`, `Ecies`, `Session` | invariants over tags; two-party simulation with any delivery order; refutations by short conversations |
| C91–C100 | `Transport` | invariants over histories; refutations |
| C128–C134 | `Pool`, `PoolContext` | invariants over polls, including counters, tables and tests |
| C135–C148 | `NetdbRun` | invariants over histories with time; per-event decision theorems |
| C149–C155 | `Destination` | invariants over histories |
| C156–C162 | `Publisher` | invariants over histories with time |
| C163–C176, C226–C228 | `SamSocket`, `SamHello`, `SamParser`, `SamServer`, `SamSession` | segmentation independence; parser against a grammar; invariants |
| C177–C188 | `Datagram`, `I2cpMessage`, `I2cpSocket`, `I2cpSession`, `I2cpServer` | round trips, segmentation independence, invariants |
| C189–C193 | `Util`, `Bloom`, `Shutdown` | permutation; intervals; reads and writes against the whole stream; histories |
| C194–C197 | `Events`, `TransitEnd` | refinement to the history of reports |
| C198, C199 | `AddressBook` | lookup against the first matching line; crash points |
| C200–C203 | `HttpProxy` | decision logic; refutation for bodies |
| C204–C207 | `Su3` | parser against a format; refutations; bound on attempts |
| C208–C213 | `Boot` | invariants over sequences of starts with any stop point |
| C214–C216 | `Config` | decision logic over all combinations |
| C217–C219 | `Storage` | invariants over batches with any stop point |
| C220–C223 | `PortMapper` | event loops over all gateway answers |
| C224, C225 | `Tunnels` | sequences of starts with any stop point; event loops |
| C229–C234 | `Net` | decision logic of dialling; histories of external addresses seen through serialization; runs of the NTCP2 transport |
| C235–C240 | `HopLoop` | the tunnel messages of C12 and C13 through the tasks of all hops, with their I2NP headers; invariants over histories of a task |
| C241–C243 | `Dsa` | the group order is prime (Pratt certificate checked by the kernel), Fermat for the inverse, exponents modulo the order of the generator; induction over calls for nonces |
| C244 | `StreamTx` | infinite schedules; the oldest unacknowledged packet changes (fair network), a measure on the queues falls while packets wait, induction over packets, then over bytes |
| C245, C246 | `HttpAnswer` | the page is read back by a reader of responses and a scanner of tags that are stated separately; refutations for silence and for markup |
| C247 to C249 | `Runtime` | backlogs by induction; both sockets as machines over calls and steps of the task, invariants over runs; sets of tasks up to permutation |
| C250 to C252 | `Journey`, over `HopLoop`, `Session`, `Datagram` | composition of C235, C236, C17, C115, C119 and C177; a sample datagram is run through all layers |
| C253 to C257 | `Ssu2Socket`: the socket, its maps and the life of each session | invariants over all histories; a step relation `Moves` per session; C76, C77, C78 and C38 are used for the packets |
| C258 to C259 | `Ntcp2Link`: command channel, writer, TCP as a byte queue, reader | invariant that relates the bytes under way to the frames; a falling measure over infinite fair schedules (`leads`) |
| C260 to C261 | `Meet`: two `Transport.Manager`s and the NTCP2 connections between them | invariant over all histories; for mutual dials an invariant over all orders of completion |
| C262 to C263 | `Ntcp2Transport`: listener, handshakes and sessions over the task sets of `Runtime` | decision of one poll; an account (permutation of outcomes) kept by every step |
| C264 | `NetdbRun` (the table of floodfills) | invariant over all histories: whoever is in the table said so; targets of the requests of a step; refuted for routers named in search replies |
| C265 | `Session` (all sessions of an identity and their common table of tags) | ownership invariant over all calls: a tag generated once has at most one waiting session, of one kind, and the table leads to it |
| C266 | `Cli` (event loop of the program, signal handler, button, port mapper) | liveness over fair infinite schedules with a measure; invariant for the number of requests; refuted while the port mapper does not answer |
| C267 | `Cli` (window) | invariant over all reports, refreshes and clicks, composed with C194 and C195; arithmetic of the lines shown; `f64` modelled as 53-bit rounding |
| C268, C269 | `Start` (log option, `setup_router`) | parser against a printer of groups by induction; decision logic over all settings and failures |
| C270 | `PoolSend`, over `Pool` and `HopLoop` | invariant over all histories (account of messages, every tunnel known), composed with C131 for the tunnels that are up and with C235 for delivery |
| C271 | `Ratchet`, `Session` | invariant over conversations (two directions, each in step or behind by one ratchet), from the sessions of C119 |
| C272 | `Ntcp2Handshake` against a handshake written from the NTCP2 specification | the code's end run against the specification's other end, for all paddings and further blocks; refuted for empty padding |
| C273 | `Ratchet`, `Session`, `TunnelBuild`, `Ssu2Handshake` against RFC 5869, Noise and the labels of the specifications | equality with a second derivation, by induction over the position in the tag set |
| C274 | `I2np`, `TunnelData`, `Build`, `Garlic`, `StreamPacket`, `Datagram` against a list of fields for every message | equality of the bytes for all values, and reading of every such list; `_violated` for encrypted lookups |
| C275 | `Primitives` (lease sets, router infos) against lists of fields | as C274, by induction over options, keys, leases and addresses; `_violated` for other transports and keys |
| C276 | `Ssu2Handshake`, `Ssu2Packet`, `Ssu2Block` against a handshake written from the SSU2 specification | as C272, for all tokens, numbers, keys and blocks; `_violated` for unknown blocks and compressed router infos |
| C277 | `TunnelBuild`, `BuildRecord` against records, routers and replies written from the tunnel creation specification | as C276: induction over the routers, for any answers of 202 bytes; one router for any record of the specification |
| C278 | `NetdbWire`: the bytes of every message of the network database and how the task reads them | round trips of garlic, headers and bodies composed: built, sealed, opened, read; the zero token by the parse it causes |
| C279 | `NetdbWire` and `NetdbRun` together | C278 at each end, C141 for any history of the floodfill in between |
| C280 | `Session`, `Ecies`, `Ratchet` against destinations written from the ECIES specification | as C276: the messages of the code equal those of the specification, each side reads the other; then C115 for the messages that follow |
| C281 | `TunnelData`, `TunnelFragment` against routers written from the tunnel message specification (`Hop`, `Through`, `Clear`) | the step of the specification is a relation on blocks and equals the code's fold; layers cancel (C46); clear text by C274; any cut reassembles (C12) |
| C282 | `StreamTask`: the whole task of a stream, with `on_packet`, `shutdown` and the steps of `poll` | invariant over all histories: every packet made is queued or acknowledged; the loss when the peer closes as a theorem about every running task |
| C283 | as C282, receiving half by the invariant of C01 | histories after a close change nothing in the other direction (induction); prefix theorem for the time before |
| C284 | as C282 | induction over histories without events from outside |
| C285 | `StreamFirst`: the line, the data that came early and the first number, on top of `StreamTask`; `SamParser` for the answer | by C283 for all histories; the refusal of the line by the parser of commands, for every lawful base 64 |
| C286 | SYNs of peers as fields of the streaming specification, signed over zeros; the stream manager of Model/StreamManager.lean | round trip of the layout with any options, then the decision of the manager stated outright |
| C287 | unsigned packets by the specification, the manager and the task of Model/StreamTask.lean | for every state of both, the packet is delivered and ends the task; C10 for the other direction |
| C288 | the task of Model/StreamTask.lean | independence of the fields in question; invariant over histories for sizes and contents |
| C289 | the message of a test as built in `maintain_pool` (Model/TunnelTest.lean), carried by the tunnels of Model/HopLoop.lean and given to a listener by Model/PoolContext.lean; results of tests in Model/Pool.lean | size of the message computed, then C250; independence of `poll` from the tests that end, by unfolding; negations outright |
| C290 | a specification of destinations of all signature types and of gzip payloads with ports and protocol (Props/DatagramPeer.lean), against Model/Datagram.lean | the layout is parsed piece by piece; negations outright |
| C291 | the two stream managers, datagram wrapping, session managers and four tunnels of two clients that open a stream | composition of C119, C250, C178 and C65 for the SYN, SYN-ACK and first packet; C251 for the packets after them |
| C292 | two tasks of Model/StreamTask.lean; a packet that comes at one must be one that the other has sent (Props/StreamTwo.lean) | induction over the joint history: what is sent is what was packetised, acknowledged numbers are those of packets with data; then C282 and C283 |
| C293 | `Model/SamPending`: the whole of `PendingSamSession::run` with the handles it uses | invariant over histories; liveness over endless histories under a stated condition on the rest of the router; invariant for the violation |
| C294 | `Model/StreamPorts`: the ports that go with each packet, at every place where one is sent | invariant of one stream over histories of all streams |
| C295 | `Model/I2cpExpires`: `SendMessageExpires` with its expiration and the time of each event, over the session of `I2cpSession` | invariant over histories: what waits was given; violations for every expiration and time |
| C296 | `Model/PoolConfig`: the configuration of the pools of I2CP and SAM clients, and one attempt to build a tunnel: `Selector`, then `TBuild.create`; the answer is read by `TBuild.tryBuild` | lengths through selection, request and answer; decimal numbers by induction |
| C297 | the listeners of a pool with the tasks that wait on them: builds, tests, dials, timeouts and messages; for inbound tunnels those of the routing table | invariant over histories (every listener has its task) for histories without failures; induction over the number of failures for the two violations |
| C298 | the lines sent on connections without a session, on top of C226 and C174 | induction over polls and commands; for the violation both answers to the same name |
| C299 | sending of serialized messages over SSU2, on top of C16, C18 and C72 | the sizes that each parser can give, against the one that the sender can parse again |
| C300 | the task of C282 with its ends | invariant that ties the ends, the flags and the highest number to the history |
| C301 | `StreamSession`: any number of tasks of C282, and what the JoinSet does with their results | projection of the joint history on one task (induction over two runs); the panics of C300 |

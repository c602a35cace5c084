# Formal model of altonen/emissary in Lean 4

## Approach

* `lean/Verif/Model/*.lean`: total, computable Lean functions that transcribe the Rust code function by
  function. Every definition cites the file and lines of `/repo` it models and says what was simplified.
* `lean/Verif/Lemmas/*.lean`: helper lemmas, not part of any claim.
* `lean/Verif/Props/*.lean`: the property theorems, one file per area, with the small specifications they are
  stated against. Beside each theorem an `example` shows that a concrete, non-trivial case meets its hypotheses.
* Where the code violates a property, its negation is proved (suffix `_violated`), for as many inputs as it is
  false for where that can be said, and the part that does hold is proved with the suffix `_partial`.
* `seeded/LOG.jsonl`: wrong programs that the theorems were tested against. The edits are in `seeded/*.json`.
* `tools/`: scripts that write `properties.jsonl`, `MANIFEST.json`, `AXIOMS.md` and this file.

### Modelling conventions

* Bytes are `UInt8`, buffers are `List UInt8`; fixed-width integers read from the wire are `Nat`, an `as u16`
  cast is `% 65536`. nom parsers are functions `List UInt8 → Option (α × List UInt8)` (the nom error value is
  collapsed to `none`).
* `&mut self` methods return the new state; panics and `Err(..)` are explicit values. `chk` says whether debug
  assertions and overflow checks are compiled in.
* Crypto, random numbers, clocks, channels and sockets are parameters of the model (functions, oracles or input
  events). What is assumed of them is a hypothesis of the theorem that uses it: for instance that decryption
  inverts encryption under the same key, or that X25519 commutes. No theorem assumes that a primitive is secure.
* `HashMap`, `BTreeMap`, `HashSet` and `BTreeSet` become association lists or functions. The iteration order of a
  hash map is a parameter wherever the result depends on it.
* A task that waits for several things is a step function over events; the events may come in any order, which
  includes every order the scheduler produces. A crash may happen between any two changes of the disk.

## Trusted base

* Lean 4.33.0's kernel, and Mathlib's lists and naturals as checked by it.
* The axioms `propext`, `Classical.choice` and `Quot.sound`; no theorem depends on another axiom. `AXIOMS.md`
  lists them for each theorem, as printed by `#print axioms`. There is no `sorry`, no `native_decide` and no
  axiom of our own.
* The reading of the Rust source that produced the model. The code was not built or run; every definition
  cites the lines it was read from, so that it can be compared with them.
* The behaviour that the model ascribes to the libraries it stands in for: the standard library's collections and
  strings, `nom`, `bytes`, the channels of `tokio`, `futures` and `thingbuf`, and the cited behaviour of `flate2`,
  `zip`, `toml`, `httparse`, `url` and `ethbloom`.

### Not modelled

* The cryptographic primitives themselves (`crypto/`, and the crates behind it), except for DSA verification, the
  nonces, the chaining modes, the Noise steps and the length obfuscation that are written in this repository.
* Runtimes and wakers (`runtime/`, `emissary-util/src/runtime/`): a waker that is never called shows as a step that
  never happens, which the safety theorems do not notice. Liveness is stated as "if it is polled".
* Metrics, logging, the layout and colours of the window (`emissary-cli/src/ui`), benchmarks and tests.
* Locks and memory ordering: the shared maps are changed in one step.
* Loss of data that was written to a file but not yet to the disk.
* `emissary-util/src/runtime/`: streams, clocks, metrics and `gzip` (listeners, datagram sockets and sets of tasks are modelled in `Runtime`), and the embedding in other programs.
* Parts of a modelled file that a module does not mention in its list of simplifications are modelled; what is left
  out is listed in the section on modules below.

## Plan: what is modelled for each property, and how it is proved

| Properties | Model | Proof |
|---|---|---|
| C01–C04 | `StreamRx`: `InboundContext::handle_packet` as a step function over (current, ready, pending, missing) | invariant relating the state to the set of received packets; prefix and completeness by induction over the delivery list |
| C05, C06 | `StreamTx`: packetize, acks, resend, and two endpoints joined by a lossy network | invariant by induction over operations |
| C07, C08 | `StreamRx`, `StreamPending` | refutation, and the theorem for in-order delivery |
| C09 | `Listener`: state machine of the listeners | invariant by induction over events; refutation by short histories |
| C10, C63–C67, C69, C70 | `StreamManager` with ghost numbers for streams | invariants over histories; two-party simulation for the handshake |
| C11 | `StreamPacket` | round trip; refutations for the fields that are lost |
| C12–C15, C46 | `TunnelData`: builder, parser, reassembler, layers | round trip composed with a permutation argument; induction over hops |
| C16–C31, C38, C57–C62, C73 | `I2np`, `Garlic`, `BuildRecord`, `Primitives`, `Ssu2Block`: codecs on byte lists | round trips and layout laws by structural induction |
| C32–C34, C68, C85–C89 | `Ntcp2`, `Ntcp2Handshake`: frame reader, length chain, Noise XK | segmentation independence by induction; lock-step simulation; agreement of transcripts |
| C35–C37, C39, C71, C72 | `Ssu2Active`: ack manager, fragment handler, duplicate filter | invariants by induction over inputs; refutation for the ack clamp |
| C74–C84 | `Ssu2Packet`, `Ssu2Handshake` | round trip of sealed packets; agreement of transcripts; timer bounds; refutations |
| C40–C42, C90 | `Netdb`: distance, buckets, tables | algebra on naturals; invariants over histories |
| C43–C45, C52, C53 | `Routing`, `TunnelBuild`: routing table, dispatcher, shutdown | invariants over histories, channels in a heap |
| C101–C107, C110, C111 | `TunnelBuild`: creating, answering and reading build messages | induction over the hops of the whole route |
| C47, C48, C113 | `Selector` | multiset counts; selection as a search with a completeness theorem |
| C49, C50, C108, C109, C112 | `Profile` | decision logic; refinement to the history of recorded events |
| C51, C124–C126 | `RoutingPath`: manager and handles with their queues | invariants over histories of both sides |
| C54–C56, C114–C123, C127 | `Ratchet`, `Ecies`, `Session` | invariants over tags; two-party simulation with any delivery order; refutations by short conversations |
| C91–C100 | `Transport` | invariants over histories; refutations |
| C128–C134 | `Pool`, `PoolContext` | invariants over polls, including counters, tables and tests |
| C135–C148 | `NetdbRun` | invariants over histories with time; per-event decision theorems |
| C149–C155 | `Destination` | invariants over histories |
| C156–C162 | `Publisher` | invariants over histories with time |
| C163–C176, C226–C228 | `SamSocket`, `SamHello`, `SamParser`, `SamServer`, `SamSession` | segmentation independence; parser against a grammar; invariants |
| C177–C188 | `Datagram`, `I2cpMessage`, `I2cpSocket`, `I2cpSession`, `I2cpServer` | round trips, segmentation independence, invariants |
| C189–C193 | `Util`, `Bloom`, `Shutdown` | permutation; intervals; reads and writes against the whole stream; histories |
| C194–C197 | `Events`, `TransitEnd` | refinement to the history of reports |
| C198, C199 | `AddressBook` | lookup against the first matching line; crash points |
| C200–C203 | `HttpProxy` | decision logic; refutation for bodies |
| C204–C207 | `Su3` | parser against a format; refutations; bound on attempts |
| C208–C213 | `Boot` | invariants over sequences of starts with any stop point |
| C214–C216 | `Config` | decision logic over all combinations |
| C217–C219 | `Storage` | invariants over batches with any stop point |
| C220–C223 | `PortMapper` | event loops over all gateway answers |
| C224, C225 | `Tunnels` | sequences of starts with any stop point; event loops |
| C229–C234 | `Net` | decision logic of dialling; histories of external addresses seen through serialization; runs of the NTCP2 transport |
| C235–C240 | `HopLoop` | the tunnel messages of C12 and C13 through the tasks of all hops, with their I2NP headers; invariants over histories of a task |
| C241–C243 | `Dsa` | the group order is prime (Pratt certificate checked by the kernel), Fermat for the inverse, exponents modulo the order of the generator; induction over calls for nonces |
| C244 | `StreamTx` | infinite schedules; the oldest unacknowledged packet changes (fair network), a measure on the queues falls while packets wait, induction over packets, then over bytes |
| C245, C246 | `HttpAnswer` | the page is read back by a reader of responses and a scanner of tags that are stated separately; refutations for silence and for markup |
| C247 to C249 | `Runtime` | backlogs by induction; both sockets as machines over calls and steps of the task, invariants over runs; sets of tasks up to permutation |
| C250 to C252 | `Journey`, over `HopLoop`, `Session`, `Datagram` | composition of C235, C236, C17, C115, C119 and C177; a sample datagram is run through all layers |
| C253 to C257 | `Ssu2Socket`: the socket, its maps and the life of each session | invariants over all histories; a step relation `Moves` per session; C76, C77, C78 and C38 are used for the packets |
| C258 to C259 | `Ntcp2Link`: command channel, writer, TCP as a byte queue, reader | invariant that relates the bytes under way to the frames; a falling measure over infinite fair schedules (`leads`) |
| C260 to C261 | `Meet`: two `Transport.Manager`s and the NTCP2 connections between them | invariant over all histories; for mutual dials an invariant over all orders of completion |
| C262 to C263 | `Ntcp2Transport`: listener, handshakes and sessions over the task sets of `Runtime` | decision of one poll; an account (permutation of outcomes) kept by every step |
| C264 | `NetdbRun` (the table of floodfills) | invariant over all histories: whoever is in the table said so; targets of the requests of a step; refuted for routers named in search replies |
| C265 | `Session` (all sessions of an identity and their common table of tags) | ownership invariant over all calls: a tag generated once has at most one waiting session, of one kind, and the table leads to it |
| C266 | `Cli` (event loop of the program, signal handler, button, port mapper) | liveness over fair infinite schedules with a measure; invariant for the number of requests; refuted while the port mapper does not answer |
| C267 | `Cli` (window) | invariant over all reports, refreshes and clicks, composed with C194 and C195; arithmetic of the lines shown; `f64` modelled as 53-bit rounding |
| C268, C269 | `Start` (log option, `setup_router`) | parser against a printer of groups by induction; decision logic over all settings and failures |
| C270 | `PoolSend`, over `Pool` and `HopLoop` | invariant over all histories (account of messages, every tunnel known), composed with C131 for the tunnels that are up and with C235 for delivery |
| C271 | `Ratchet`, `Session` | invariant over conversations (two directions, each in step or behind by one ratchet), from the sessions of C119 |
| C272 | `Ntcp2Handshake` against a handshake written from the NTCP2 specification | the code's end run against the specification's other end, for all paddings and further blocks; refuted for empty padding |
| C273 | `Ratchet`, `Session`, `TunnelBuild`, `Ssu2Handshake` against RFC 5869, Noise and the labels of the specifications | equality with a second derivation, by induction over the position in the tag set |
| C274 | `I2np`, `TunnelData`, `Build`, `Garlic`, `StreamPacket`, `Datagram` against a list of fields for every message | equality of the bytes for all values, and reading of every such list; `_violated` for encrypted lookups |
| C275 | `Primitives` (lease sets, router infos) against lists of fields | as C274, by induction over options, keys, leases and addresses; `_violated` for other transports and keys |
| C276 | `Ssu2Handshake`, `Ssu2Packet`, `Ssu2Block` against a handshake written from the SSU2 specification | as C272, for all tokens, numbers, keys and blocks; `_violated` for unknown blocks and compressed router infos |
| C277 | `TunnelBuild`, `BuildRecord` against records, routers and replies written from the tunnel creation specification | as C276: induction over the routers, for any answers of 202 bytes; one router for any record of the specification |
| C278 | `NetdbWire`: the bytes of every message of the network database and how the task reads them | round trips of garlic, headers and bodies composed: built, sealed, opened, read; the zero token by the parse it causes |
| C279 | `NetdbWire` and `NetdbRun` together | C278 at each end, C141 for any history of the floodfill in between |
| C280 | `Session`, `Ecies`, `Ratchet` against destinations written from the ECIES specification | as C276: the messages of the code equal those of the specification, each side reads the other; then C115 for the messages that follow |
| C281 | `TunnelData`, `TunnelFragment` against routers written from the tunnel message specification (`Hop`, `Through`, `Clear`) | the step of the specification is a relation on blocks and equals the code's fold; layers cancel (C46); clear text by C274; any cut reassembles (C12) |
| C282 | `StreamTask`: the whole task of a stream, with `on_packet`, `shutdown` and the steps of `poll` | invariant over all histories: every packet made is queued or acknowledged; the loss when the peer closes as a theorem about every running task |
| C283 | as C282, receiving half by the invariant of C01 | histories after a close change nothing in the other direction (induction); prefix theorem for the time before |
| C284 | as C282 | induction over histories without events from outside |
| C285 | `StreamFirst`: the line, the data that came early and the first number, on top of `StreamTask`; `SamParser` for the answer | by C283 for all histories; the refusal of the line by the parser of commands, for every lawful base 64 |
| C286 | SYNs of peers as fields of the streaming specification, signed over zeros; the stream manager of Model/StreamManager.lean | round trip of the layout with any options, then the decision of the manager stated outright |
| C287 | unsigned packets by the specification, the manager and the task of Model/StreamTask.lean | for every state of both, the packet is delivered and ends the task; C10 for the other direction |
| C288 | the task of Model/StreamTask.lean | independence of the fields in question; invariant over histories for sizes and contents |
| C289 | the message of a test as built in `maintain_pool` (Model/TunnelTest.lean), carried by the tunnels of Model/HopLoop.lean and given to a listener by Model/PoolContext.lean; results of tests in Model/Pool.lean | size of the message computed, then C250; independence of `poll` from the tests that end, by unfolding; negations outright |
| C290 | a specification of destinations of all signature types and of gzip payloads with ports and protocol (Props/DatagramPeer.lean), against Model/Datagram.lean | the layout is parsed piece by piece; negations outright |
| C291 | the two stream managers, datagram wrapping, session managers and four tunnels of two clients that open a stream | composition of C119, C250, C178 and C65 for the SYN, SYN-ACK and first packet; C251 for the packets after them |
| C292 | two tasks of Model/StreamTask.lean; a packet that comes at one must be one that the other has sent (Props/StreamTwo.lean) | induction over the joint history: what is sent is what was packetised, acknowledged numbers are those of packets with data; then C282 and C283 |
| C293 | `Model/SamPending`: the whole of `PendingSamSession::run` with the handles it uses | invariant over histories; liveness over endless histories under a stated condition on the rest of the router; invariant for the violation |
| C294 | `Model/StreamPorts`: the ports that go with each packet, at every place where one is sent | invariant of one stream over histories of all streams |
| C295 | `Model/I2cpExpires`: `SendMessageExpires` with its expiration and the time of each event, over the session of `I2cpSession` | invariant over histories: what waits was given; violations for every expiration and time |
| C296 | `Model/PoolConfig`: the configuration of the pools of I2CP and SAM clients, and one attempt to build a tunnel: `Selector`, then `TBuild.create`; the answer is read by `TBuild.tryBuild` | lengths through selection, request and answer; decimal numbers by induction |
| C297 | the listeners of a pool with the tasks that wait on them: builds, tests, dials, timeouts and messages; for inbound tunnels those of the routing table | invariant over histories (every listener has its task) for histories without failures; induction over the number of failures for the two violations |
| C298 | the lines sent on connections without a session, on top of C226 and C174 | induction over polls and commands; for the violation both answers to the same name |
| C299 | sending of serialized messages over SSU2, on top of C16, C18 and C72 | the sizes that each parser can give, against the one that the sender can parse again |
| C300 | the task of C282 with its ends | invariant that ties the ends, the flags and the highest number to the history |
| C301 | `StreamSession`: any number of tasks of C282, and what the JoinSet does with their results | projection of the joint history on one task (induction over two runs); the panics of C300 |


## Modules: what is modelled and what is left out

### `AMap`: Maps as association lists

A hash map is a list of pairs with distinct keys. The order of the list stands for the unspecified order of iteration; nothing that is proved
depends on it.

### `AddressBook`: The address book

`emissary-cli/src/address_book.rs`: lists of host names are downloaded, merged, and written to a
file; names are looked up in the file. Text is a list of characters. `ws` is `char::is_whitespace`.
The downloads themselves are given: which list arrived.

### `Bloom`: The decaying filter for repeated tunnel messages

`emissary-core/src/bloom.rs`. A Bloom filter of the `ethbloom` crate is a word of 2048 bits; an item
stands for the three bits its Keccak hash names. The hash is a parameter, `bits`.

### `Boot`: Starting the program

`emissary-cli/src/config.rs`, `Config::parse` and what it calls: directories, key files and
`router.toml` are read, and made if they are missing. A start is the list of changes it makes to the
disk, one after another, so that it can be stopped after any number of them. What was written stays
written: loss of written data, as after a power failure, is not modelled. The values of the
configuration are a type `C`.

### `BuildRecord`: Tunnel build records

Models `emissary-core/src/i2np/tunnel/build/short.rs` and `variable.rs`.

### `Bytes`: Byte buffers and nom-style parsers

Shared vocabulary for every codec in the model.  Models the pieces of the `nom` and `bytes` crates the
repository uses: `nom::number::complete::{be_u8,be_u16,be_u32,be_u64}`, `nom::bytes::complete::take`,
`bytes::BufMut::{put_u8,put_u16,put_u32,put_u64}` and `{u16,u32,u64}::to_be_bytes`.

Simplification: the nom error value (kind and position) is collapsed to `none`; every caller in the
repository only distinguishes `Ok` from `Err`.

### `Cli`: The program around the router

`emissary-cli/src/main.rs` (`router_event_loop` and both `main`s), `emissary-cli/src/signal.rs`, `PortMapper::{shutdown,poll_next}` of
`emissary-cli/src/port_mapper/mod.rs` and `emissary-cli/src/ui/mod.rs`. Simplifications: `tokio::select!` takes any branch that is ready, so
the order in which the branches are taken is left open; a poll of the router that gives `Pending` may come at any time; floating point numbers
are fractions except where `F64` is used; layout, colours and the clipboard are left out.

### `Config`: The configuration of the program and the arguments of the command line

Models `emissary-cli/src/config.rs` and `emissary-cli/src/cli.rs`. Simplifications: numbers are natural
numbers; the sections that `merge` does not look at (address book, I2CP, SAM, NTCP2, SSU2, router infos,
profiles, keys) are one value of a type `R`; hash sets are duplicate-free lists.

### `Datagram`: I2CP payloads and SAM datagrams

`emissary-core/src/protocol.rs`, `emissary-core/src/i2cp/payload.rs` and `emissary-core/src/sam/protocol/datagram/mod.rs`.

Simplifications: compression and decompression are parameters. A compressed payload has the ten bytes of a gzip header (`build` would panic otherwise). The text of a
destination (base64) is a parameter. Of the options of a session only `PORT` is kept.

### `Destination`: A client destination

`Destination`, `emissary-core/src/destination/mod.rs`: the lease sets of remote destinations, queries for them, and the messages that are sent to
remotes and received from them.

Simplifications: ids of destinations, routers, tunnels and keys are numbers. The session manager is outside: what `encrypt` returns for a message, the
cloves that `decrypt` finds in a message and the events it emits are inputs. The network database is outside: whether its channel takes a query and what
it answers are inputs. The tunnel pool is outside: whether its channel takes a message is an input. Random numbers are inputs. The routing path manager
is the model `RPath.Sys`. The local lease set manager is modelled in `Verif.Model.Publisher`. The backoff of five seconds between the attempts of a query
has no duration here: the attempts are inputs. The I2NP message around an encrypted message is left out except for its expiration. Wakers are left out.

### `Dsa`: DSA-SHA1 signatures and AEAD nonces

Models `emissary-core/src/crypto/dsa.rs`, the DSA case of `SigningPublicKey` in `crypto/mod.rs`, and the nonces of `crypto/chachapoly.rs`.
`BigUint` is `Nat`; SHA-1, the AEAD and the other kinds of signatures are parameters.

### `Ecies`: Setting up garlic sessions

Models `destination/session/{context,inbound,outbound}.rs`: the `NewSession` and `NewSessionReply` messages and the first `ExistingSession`
message. Random private keys are arguments. Zeroing of secrets and logging are not represented. The number of tags generated at a time is a
parameter, so that small cases can be evaluated; the code's values are `Tags.code`.

### `Events`: What the router tells the program that embeds it

`emissary-core/src/events.rs` (status numbers, destinations that came up, the two shutdown events)
and the parts of `emissary-core/src/router/mod.rs` that ask for the shutdown and decide when the
router has ended. Clones of an `EventHandle` share their counters and their channel (94-109), so one
state stands for all of them.

### `Garlic`: Garlic messages

Models `emissary-core/src/i2np/garlic.rs`: blocks, parser and builder.
Simplification: `StaticPublicKey` is its 32 bytes; `Duration` is nanoseconds.

### `HopLoop`: The tasks of tunnels

Models `tunnel/transit/{participant,inbound,outbound}.rs`, `tunnel/hop/inbound.rs` (140-266, 313-353), the sending side of
`tunnel/hop/outbound.rs` (67-189) and `tunnel/pool/zero_hop.rs`. Encryption, fragments and reassembly are in `TunnelData`.

Simplifications: a message comes with the time at which it is handled and the random values that are drawn for it; the task of a tunnel
is the sequence of the messages it takes from its channel, of the ticks of its event handle and of the end of its
timer. What becomes of a message given to the routing table is in `Routing`.

### `HttpAnswer`: What the HTTP proxy answers: error pages and copied replies

Sources: `emissary-cli/src/proxy/http/response.rs` and `emissary-cli/src/proxy/http/mod.rs` 285-390. Bytes stand for
texts; a browser that goes away while it is answered is left out.

### `HttpProxy`: The HTTP proxy

`emissary-cli/src/proxy/http/mod.rs`: a browser's request is read, its headers are sanitised, and the
new request is sent to the destination named by the `Host` header. What the `httparse` crate finds in
the bytes is given (`Head`); what the `url` crate makes of the request target is the function `target`;
`utf8` is `str::from_utf8(..).is_ok()`.

### `I2cpExpires`: Messages of an I2CP client with the time until which they are to be sent

`Message::SendMessageExpires` in `emissary-core/src/i2cp/session.rs` 318-402, with the fields that the session leaves out and with the time at which things happen.

### `I2cpMessage`: I2CP messages

`emissary-core/src/i2cp/message/`: the messages that a client sends (`mod.rs`) and the messages that the router builds for it.

Simplifications: a session id is a number; `SessionId::NoSession` is 0xffff and `SessionId::from` and `as_u16` are inverse to each other (mod.rs 70-87). Times are
milliseconds. The options of a session are the list of its entries in key order.

### `I2cpServer`: Pending I2CP sessions and the I2CP server

`PendingI2cpSession`, `emissary-core/src/i2cp/pending.rs`, `I2cpServer`, `emissary-core/src/i2cp/mod.rs`, and `TunnelPoolConfig::from`, `emissary-core/src/tunnel/pool/mod.rs` 136-167.

Simplifications: messages are the parsed ones (`I2cpMessage`); whether the tunnel manager accepts a new pool, when the pool is there and what its events are is an input. Hash maps keep
an order of their own: `leases` of a request is in the order of the association list. The name of the pool is left out. Sockets and wakers are left out. A `JoinSet` yields `None` exactly
if one of its tasks panicked (`emissary-util/src/runtime/tokio.rs` 257-270).

### `I2cpSession`: An active I2CP session

`I2cpSession`, `emissary-core/src/i2cp/session.rs`, with the lease set queries of `Destination::query_lease_set`, `emissary-core/src/destination/mod.rs` 286-343, 808-834
and 891.

Simplifications: destinations are identified with their ids (SHA-256 hashes). Whether the destination has a lease set that has not expired, and what the serialized destination
in it is, is an input of each message (`cached`), and so are the results of queries and lookups, the clock and the messages that arrive. What the destination does
with a message that it is given (`sent`), or with a lease set (`published`), is not part of this model. Wakers and the socket (`I2cpSocket`) are left out: the messages for
the client are written down in the order in which they are given to the socket.

### `I2cpSocket`: The socket of an I2CP client

`I2cpSocket`, `emissary-core/src/i2cp/socket.rs`.

Simplifications: how a message is understood (`MessageType::from_u8` and `Message::parse`) is a parameter. What the TCP stream does is an input: the segments
that are there to be read and how many bytes it takes. Of the read buffer only the bytes before the offset are kept, since the others are overwritten before they are used.
The loop that writes is the one of `SamSocket`. Wakers are left out.

### `I2np`: I2NP message framing

Models `emissary-core/src/i2np/mod.rs` (message types, hop roles, `MessageBuilder`, `Message`),
`i2np/tunnel/gateway.rs`, `i2np/delivery_status.rs`, `i2np/database/{search_reply,lookup,store}.rs`.

Simplifications: a `Duration` is a number of nanoseconds; a `RouterId` is its 32-byte hash (in the code it is the
base64 text of the hash, decoded again for serialization); `u32`/`u64` values are naturals, so builders truncate
explicitly through `be`. SHA-256 is a parameter.

### `Journey`: A message of a destination on its way

Models `destination/mod.rs` where it connects the sessions with the tunnels: `send_message_inner` (395-400, the I2NP message around what the session
manager encrypted, and the delivery to a lease, 402-470) and `decrypt_message` (513-700, what is read from a message of an inbound tunnel). The parts are
modelled elsewhere: the sessions in `Session`, the tunnels in `TunnelData` and `HopLoop`, leases and held back messages in `Destination`.

### `Listener`: Stream listeners of a SAM session

Models `emissary-core/src/sam/protocol/streaming/listener.rs` (lines 138-630), the part of a SAM
session that keeps the sockets of `STREAM ACCEPT` and `STREAM FORWARD` clients.

Simplifications: a socket is an opaque identity `σ`; the pending routing path handle, which always
travels with the socket, is left out, as are wakers and logging.  The futures in `pending_sockets`
write `STREAM STATUS RESULT=OK` to the client; they complete in any order and either succeed or fail,
which the environment decides (`Op.wrote`).  A failed `debug_assert!` is recorded in `asserted`.

### `Meet`: Two routers and the NTCP2 connections between them

The transport managers of two routers (`Verif.Model.Transport`), joined by the connections they open to each other.
Models how `Ntcp2Transport` (/repo/emissary-core/src/transport/ntcp2/mod.rs 208-350) and `SessionManager`
(/repo/emissary-core/src/transport/ntcp2/session/mod.rs 163-437) carry the decisions of one manager to the other router. Other routers, the contents of
the handshake and the timing are left out; each router knows the other.

### `Net`: Local addresses, dialling and the sockets of the transports

Models `transport/ntcp2/{mod,listener}.rs`, `transport/ssu2/{mod,socket}.rs` (`connect` and the loop over outgoing packets),
`transport/mod.rs` (`add_external_address`, the choice of the transport to dial with, the end of the manager), the end of
`Router::poll` in `router/mod.rs`, and the sockets of `/repo/emissary-util/src/runtime/tokio.rs`. The packets and handshakes themselves are in
`Ntcp2Handshake` and `Ssu2Handshake`. Base64, the public key of a static key and the text of an address are parameters.

### `Netdb`: Kademlia tables of the network database (netdb/types.rs, bucket.rs, routing_table.rs, dht.rs)

A router id is represented by its 32 hash bytes (`RouterId::to_vec`); `Key<T>` is its preimage and those bytes, so for router
ids both coincide. `HashSet<RouterId>` is a list in iteration order.

### `NetdbRun`: The network database task (netdb/mod.rs, netdb/query.rs)

One clock in milliseconds stands for both the wall clock and the monotonic clock. Router ids and destination ids are their 32 bytes
(`RouterId::to_vec`). Messages are modelled by what they say; their bytes are the subject of the I2NP model. The router profiles are
shared with other tasks, which may change them at any time, so what they answer is given anew with every event (`Env`). Hash sets are lists without
duplicates. Metrics and log output are left out. A call of `poll` (1852-2010) is a list of events followed by `tick`; the model
allows events in any order, which includes every order the code produces.

### `NetdbWire`: The messages of the network database

What `destination/lease_set.rs`, `netdb/query.rs` and `netdb/mod.rs` put on the wire for the messages `NetdbRun` knows by their meaning, and what the
network database task makes of a message it is given. Random values and the clock (nanoseconds) are arguments; `P` are the primitives of the tunnel model.

### `Ntcp2`: NTCP2: handshake options, message blocks, length obfuscation, cipher nonces, session reader and writer

Models `emissary-core/src/transport/ntcp2/{options,message}.rs`, `transport/ntcp2/session/active.rs`,
`crypto/siphash.rs` and `crypto/chachapoly.rs`.

Simplifications: SipHash-2-4, HMAC-SHA-256 and ChaCha20-Poly1305 are parameters; whether a message is expired is
an oracle; the bandwidth counter, events and logging are omitted.

### `Ntcp2Handshake`: NTCP2 handshake (transport/ntcp2/session/{initiator,responder,mod}.rs, crypto/noise.rs)

Random values and the clock are arguments. SHA-256, HMAC-SHA-256, X25519, AES-256 and ChaCha20-Poly1305 are parameters.
`chk`: built with overflow checks. A peer is the byte stream it sends; `read_exact` fails when the stream ends early.
Dialling and closing the TCP stream, events and logging are omitted.

### `Ntcp2Link`: One direction of an NTCP2 connection

The command channel, the writing half of the session at one router, the TCP connection and the reading half at the
other router.

Simplifications: the two directions of a connection share no state (`sip.sender` and `send_cipher` belong to the
writer, `sip.receiver` and `recv_cipher` to the reader), so one direction is modelled. TCP is a byte queue of bounded
size that loses nothing; it neither fails nor closes. An iteration of the read or write loop of `poll` is one event; a
`Poll::Pending` leaves the session as it is. The bandwidth counters are left out.

### `Ntcp2Transport`: `Ntcp2Transport`: the listener, the handshakes and the open connections

Models /repo/emissary-core/src/transport/ntcp2/mod.rs 76-145 and 208-350 over the task sets of `Verif.Model.Runtime`. Sessions are the
numbers of their handshakes. Metrics and the waker of `connect` and `accept` (220-222, 236-238), which those of the task sets
make unnecessary, are left out; so are the addresses that the listener turns away (`Verif.Model.Net`).

### `OMap`: Ordered maps and sets

Models `alloc::collections::{BTreeMap, BTreeSet}` with `u32` keys as sorted association lists.
Only the operations the repository uses are modelled: `insert`, `remove`, `get`/`contains_key`,
`first`, `iter` (in key order) and `len`.

### `Pool`: Tunnel pools

Models `emissary-core/src/tunnel/pool/mod.rs` (`TunnelPool`: fields 172-235, build counts 299-320, `maintain_pool` 330-838, `poll` 844-1465), with the
timers of `tunnel/pool/timer.rs`, the results of `tunnel/pool/listener.rs`, the bookkeeping of the selectors (`tunnel/pool/selector.rs` 272-297, 672-699) and
the events of `tunnel/pool/context.rs` 414-483.

Times are milliseconds. Tunnels are their ids. The tasks that a pool waits for (builds, inbound tunnels, tests, timers) run on their own, so a poll is given which of them
have finished; what cannot have finished is ignored. Hop selection and tunnel creation are reduced to whether they give a new tunnel id. Not modelled here: the contents of build
messages, the messages that owners send (`PoolSend`), metrics, and the status reports to the event handle (1440-1448).

### `PoolConfig`: From the options of a client to the tunnels of its pool

The configuration of the pools of I2CP and SAM clients, and one attempt of `TunnelPool::maintain_pool` to build a tunnel, `emissary-core/src/tunnel/pool/mod.rs` 340-566 and 569-695.

### `PoolContext`: Messages that arrive in a tunnel pool

Models `tunnel/pool/context.rs`. Oneshot channels are numbered; what is sent over them is seen as the result of a step, and `gone` are the channels whose
receiver was dropped. The channel to the owner of the pool (`event_tx`, 64 elements) is modelled for messages only. `chk`: built with debug assertions.

### `PoolSend`: What a tunnel pool sends for others

Models the loop of `TunnelPool::poll` that takes messages from the pool's context (`emissary-core/src/tunnel/pool/mod.rs` 1013-1283), the handles that put them
there (`tunnel/pool/handle.rs` 113-231, `tunnel/pool/context.rs` 84-117, 209-221) and `OutboundTunnel::{send_to_router,send_to_tunnel}` with the tunnel that is chosen.
The rest of the poll is `Pool`; encryption and fragments are in `TunnelData` and `HopLoop`.

Simplifications: which tunnel comes first in the hash map is given with every message; messages that arrive while the loop runs count as having arrived before it or after it; a
piece that the routing table does not take is lost (1049-1078, 1116-1126), which is in `Routing`; the channel closes when the pool ends. `TunnelSender` without a kind of
delivery panics (`handle.rs` 181, 209); all its users give one.

### `PoolWaits`: Who waits for messages in a tunnel pool

The uses of the listeners of `PoolContext`: builds of outbound tunnels whose answer comes through a tunnel of the pool, `emissary-core/src/tunnel/pool/mod.rs` 472-563 with
`emissary-core/src/tunnel/pool/listener.rs` 98-207, and tests of tunnels, `emissary-core/src/tunnel/pool/mod.rs` 725-838.

Simplifications: a build may belong to another pool, which makes no difference to the listeners; that the receiver sees its channel closed (listener.rs 149-166) is left out, since a
listener is dropped only by the one who waits. An answer that comes before the result of the dial ends the task
here, while the code keeps the answer in the channel until the dial is known; the listener is gone in both. The assertion after two minutes without the result of a dial (listener.rs 128) is left out.

### `PortMapper`: Port forwarding

Models `emissary-cli/src/port_mapper/{mod,nat_pmp,upnp}.rs`. Simplifications: the gateway, the network
and time are oracles: each operation is given with the time it takes, counted in whole windows of five
seconds, and its result; what the event loops do is a list of outputs; the bounded address channel never
blocks; answers to mapping requests are only logged by the code and have no content here. A future that
has finished and is polled again panics, as the futures made by `async` blocks do; a timer of tokio that
has fired and is polled again is ready.

### `Primitives`: I2P common structures

Models `emissary-core/src/primitives/{string,mapping,date,router_identity,destination,offline_signature,lease_set,
router_address,capabilities,router_info}.rs`.

Simplifications: `Str` is its bytes (the `Static`/`Allocated` distinction is invisible, string.rs:125-131);
`HashMap<Str, Str>` is the list of its entries in key order, which is the order the code serializes them in;
`RouterId`/`DestinationId` are the hash bytes (base64 text in the code). SHA-256, UTF-8 validation, key validation,
signature verification and IP address parsing are fields of `Env`.

### `Profile`: Router profiles (emissary-core/src/profile.rs)

Router ids are natural numbers. Hash maps are association lists without repeated keys, hash sets lists without repetitions; the order
of such a list stands for the (arbitrary) order in which the map is iterated. The weighted participation rates are floating point
numbers that are only used for sorting (336, 392, 859): the sorting function, which sees the profiles, is a parameter of which only
that it permutes its argument will be assumed. A failed `expect` or a negative `Duration` is `none`. Locks are not modelled: no function of this file
holds a lock while it waits. `R::time_since_epoch()` is a parameter.

### `Publisher`: The publisher of a destination's lease set

`LeaseSetManager`, `emissary-core/src/destination/lease_set.rs`.

Simplifications: what the network database, the profile storage and the tunnel pool do are inputs: whether their channels take a message, what they answer.
Keys are numbers, lease sets are bytes. The messages are not encrypted or sealed: what is kept of a message is the floodfill it goes to, the key it is
sealed with, the lease set in it, the lease over which the answer comes back, and when it is sent. The hash of the destination's key and the date, to which the
distance of floodfills is measured, is an input of every turn. The order in which a hash map is walked is the order of the model's list; where the program takes an
element at random, the random number is an input. Wakers are left out.

### `Ratchet`: Tag sets of garlic sessions

Models `destination/session/tag_set.rs`. `P` are the primitives (`P.hmac`, `P.dh`, `P.pub`). The random private keys are arguments.
Zeroing of secrets and logging are not represented, nor are the fields `recv_key_id`, `send_key_id` and `session_tag_key`, which are
never read. `chk` means debug assertions: a failing one is `panic`.

### `Routing`: Message routing inside the router

Models `tunnel/routing_table.rs` (98-396), `subsystem.rs` (129-225), `shutdown.rs` (37-162) and the shutdown part of
`router/mod.rs` (425-472).

Channels live in a heap indexed by handles, so that the receiver returned to a caller and the sender kept in a table refer to
the same object. A `thingbuf` channel is a queue with a capacity. `chk`: built with debug assertions.

### `RoutingPath`: Routing paths

`RoutingPathManager` and `RoutingPathHandle`, `emissary-core/src/destination/routing_path.rs`. A destination has one manager. A stream or a datagram
session has a handle for the remote destination it talks to; the handle picks a local outbound tunnel and a tunnel of the remote from its leases.

Simplifications: tunnel ids and destination ids are numbers. A handle's random choice is given by a number. The channels from the manager to the
handles (128 events) and from the handles to the manager (512 commands) are queues, and what does not fit is dropped as in the code. The manager is
never dropped before its handles, so channels are never closed from its side and a oneshot sender is never dropped without an answer.
`PendingRoutingPathHandle::bind` (lines 556-582) and `handle` (264-288) both amount to `subscribe`. Times are nanoseconds since the epoch; a timer is
ready from its deadline on.

### `Runtime`: The runtimes: accepting connections, datagram sockets, sets of tasks

Models `/repo/emissary-util/src/runtime/tokio.rs` 164-283 and `/repo/emissary-util/src/runtime/async_std.rs` 145-375. The
libraries below (the sockets of the system, the executor) are event sources; metrics, clocks, `gzip` and the streams, which
pass calls on as they are, are left out.

### `SamEarly`: The lines that a SAM client is sent before it has a session

The texts of `PendingSamConnection`, `emissary-core/src/sam/pending/connection.rs`. `b64` is I2P's base64.

### `SamHello`: SAM connections before they belong to a session

`PendingSamConnection`, `emissary-core/src/sam/pending/connection.rs`.

Simplifications: commands are the parsed ones (`SamParser`), each with the keys that are made if it asks for some. Times are milliseconds. The text of a reply is
given by its parts. The socket is `SamSocket`; here it is the commands that it returns in one poll, and whether it is closed after them.

### `SamParser`: The commands of a SAM client

`emissary-core/src/sam/parser.rs`, with the parsers of the library `nom` (version 7) that it uses.

Simplifications: a text is a list of characters. Base 32 and base 64 and the parser of destinations are parameters. A transient destination is not made here, its
keys are random. Logging is left out.

### `SamPending`: How a SAM session comes to be

`PendingSamSession::run`, `emissary-core/src/sam/pending/session.rs` 183-274, from the first line to the last, with the handles it uses:
`NetDbHandle::wait_until_ready` (`netdb/handle.rs` 204-211) and the future of `TunnelManagerHandle::create_tunnel_pool` (`tunnel/handle.rs` 85-96).

Simplifications: the channels, the timer and the tasks at their other ends are inputs. An input that `run` does not wait for is left alone.

### `SamServer`: The SAM server and sessions that wait for tunnels

`SamServer`, `emissary-core/src/sam/mod.rs`, and `PendingSamSession`, `emissary-core/src/sam/pending/session.rs`.

Simplifications: destinations are identified with their ids (SHA-256 hashes). What a connection asks for is an input, and so are: whether the tunnel manager
accepts a new pool, whether the command channel of a session has room, when tasks end and how, what the address book answers. The futures of sessions are
lists of the id and the destination they were made with; `ended k` means that the `k`-th of them is done. Commands are told apart by the socket they
came with; the options of commands are left out. A `JoinSet` yields `None` exactly if one of its tasks panicked (`emissary-util/src/runtime/tokio.rs` 257-270).
Accepting connections and metrics are left out.

### `SamSession`: A SAM session

`SamSession`, `emissary-core/src/sam/session.rs`, with the lease set queries of `Destination::query_lease_set`, `emissary-core/src/destination/mod.rs` 286-343
and 808-834.

Simplifications: destinations are identified with their ids (SHA-256 hashes). Whether the destination has a lease set that has not expired is an input of each
command (`cached`), and so are the results of queries and lookups. Streams are left to the stream manager once they are opened (`opened`); what it
reports is an input. What is made of a datagram before it is handed to the destination is a parameter (`make`), and compression does not fail. Wakers, options of
streams, listeners after their registration and the lease sets of the session are left out. A socket that is dropped is written down as `dropped`.

### `SamSocket`: The socket of a SAM client

`SamSocket`, `emissary-core/src/sam/socket.rs`.

Simplifications: how a line is understood (`core::str::from_utf8` and `SamCommand::parse`) is a parameter. What the TCP stream does is an input: the segments
that are there to be read and how many bytes it takes. Wakers are left out.

### `Selector`: Selecting the hops of a tunnel and counting participation

Models `tunnel/pool/selector.rs` and `util::shuffle` (util/mod.rs 171-178). Simplifications: router hashes are numbers, keys of routers
are left out, the comparison of `f64` quotients is the comparison of products (exact below 2^46 tunnels), and the iteration order of
hash maps is that of lists, which the shuffles that follow make irrelevant. The random numbers are parameters.

### `Session`: Garlic sessions of a destination

Models `destination/session/{session,mod}.rs`: pending and active sessions and the session manager.

* Hash maps are association lists; the order in which a hash set of acks is sent is the order of insertion.
* Time, message ids and private keys are arguments (`Draw`).
* A `DatabaseStore` with a lease set is read by the parameter `readStore`, which gives its key and the id of the destination in the lease
  set; it is written by `storeBuild`.
* The tag map keeps, besides its contents, a list of all tags ever inserted. The program has no such list; it is used in statements only.
* Wakers and logging are not represented.

### `Shutdown`: Shutting the router down

`emissary-core/src/shutdown.rs`: the router tells each subsystem that holds a handle, and waits
until every one of them has answered. Handles are numbered in the order they are given out. The
channels are those of the `futures` crate: whoever waits for the answer of a subsystem learns that
it was sent, or that the other side is gone; the model does not tell the two apart, as the code does
not (`let _ = rx.await`, 133). Waking up tasks is not modelled.

### `Ssu2Active`: SSU2 sessions: acknowledgements, fragments, duplicates

Models `emissary-core/src/transport/ssu2/session/active/{ack,fragment,duplicate}.rs`, the message path of
`transport/ssu2/session/active/mod.rs` (lines 178-427) and `bloom.rs`.

Simplifications: packets are already decrypted and parsed into blocks; the clock is an oracle (which messages have
expired, which partial messages are stale); the Bloom filter's hash function (crate `ethbloom`) is a parameter giving the bits of
an element; channels always accept.

### `Ssu2Block`: SSU2 message blocks (transport/ssu2/message.rs 54-881)

`Res` separates a parse error from a panic. `chk` says whether the program was built with debug assertions and overflow checks
(the `dev`, `test` and `testnet` profiles of the workspace; plain `release` has neither).

### `Ssu2Handshake`: SSU2 handshake (transport/ssu2/session/pending/{inbound,outbound,mod}.rs, socket.rs 162-342, crypto/noise.rs)

Random values and the clock are arguments. A full packet channel (`pkt_tx.try_send` fails) only loses the packet and is covered
by the network losing it. `chk`: built with debug assertions.

### `Ssu2Packet`: SSU2 packets: headers, message builders, header reader, socket (transport/ssu2/message.rs 884-2168, socket.rs,

session/active/mod.rs 231-336, session/terminating.rs)

Random values (padding, packet numbers, connection ids) and the clock are arguments. A builder with an unset field panics
(`expect("to exist")`); every caller sets all of them, so the fields are plain arguments.

### `Ssu2Send`: SSU2 sessions: messages to send, as bytes

`send_message` of `emissary-core/src/transport/ssu2/session/active/mod.rs` 339-427 is given the serialized message, which it parses again.

### `Ssu2Socket`: The SSU2 socket and the sessions it runs

`emissary-core/src/transport/ssu2/socket.rs` (213-563), `session/active/mod.rs` (232-336, 429-509) and `session/terminating.rs` (127-164): how
datagrams reach sessions, how sessions come and go and what is kept of them. The handshakes are `Ssu2Handshake`, the packets `Ssu2Packet`,
the contents of a session's packets `Ssu2Active`; here a handshake's outcome is a step of its own.

### `Start`: The start of the program

`parse_log_targets` of `emissary-cli/src/logger.rs` and `setup_router` of `emissary-cli/src/main.rs` (82-270). Simplifications: levels and how
`tracing-subscriber` applies its directives are left open; reading the configuration is in `Verif.Model.Config`, the reseeder in `Verif.Model.Su3`;
`Router::new` either fails or gives the address of its SAM server.

### `Storage`: Router infos and profiles on the disk

Models `emissary-cli/src/storage.rs` and the loading of router infos and profiles in
`emissary-cli/src/config.rs`. Simplifications: a file is known by the directory `netDb` or
`peerProfiles`, the character of its subdirectory and its name; identifiers have no `/`; only the
subdirectories `rX` and `pX` exist; file contents grow one byte at a time, and the program may be killed
between two changes; batches are stored one after the other; decompression and the text form of profiles
are parameters; paths are lists of characters, so that offsets count characters.

### `StreamFirst`: What a client is given first

Models `spawn_stream` (sam/protocol/streaming/mod.rs 541-690) and `Stream::new` (stream/active.rs 565-716) as far as the beginning of a stream is concerned: the line
that is written to the client's socket, the data that came before the socket, and where the numbering of the peer goes on. Base 64 is a parameter.

### `StreamManager`: The stream manager

Models `emissary-core/src/sam/protocol/streaming/mod.rs` (`StreamManager`).

Simplifications: hash maps are functions; every spawned stream future gets a fresh number `uid` (ghost, so that two
streams which reuse an id can be told apart); `running` is the `JoinSet` of stream futures; whether a channel had room,
a listener socket was available (`StreamListener::pop_socket`), a routing path existed, which pending streams are stale
and which random numbers were drawn are inputs of the step; ports, logging and SAM socket writes are omitted.
Destinations are identified by their hash (`DestinationId`).

### `StreamPacket`: Streaming packets

Models `emissary-core/src/sam/protocol/streaming/packet.rs`: `Flags`, `Packet::{parse,peek}`, `PacketBuilder`.
Signing is the parameter `sign`; key checks and verification are in `Env` (Model/Primitives.lean).

### `StreamPending`: Inbound stream waiting for a listener

Models `emissary-core/src/sam/protocol/streaming/stream/pending.rs` (`PendingStream`, 67-203) and the
hand-over to an active stream (`stream/active.rs:624-660`, `StreamKind::InboundPending`).
Simplification: packets are given by their parsed fields; ids, timestamps and signatures are omitted.

### `StreamPorts`: The ports of streams

`StreamManager`, `emissary-core/src/sam/protocol/streaming/mod.rs`, and `Stream`, `emissary-core/src/sam/protocol/streaming/stream/active.rs`: the two ports
that go with each packet that is sent (`I2cpPayloadBuilder`, `emissary-core/src/sam/session.rs` 435-438 and 1189-1192). What the packets say is in
`Model/StreamManager` and `Model/StreamTask`.

Simplifications: a stream is one number, from the first packet to the last. When packets are sent is an input, and so is whether there is a listener.

### `StreamRx`: Receive half of an active I2P stream

Models `emissary-core/src/sam/protocol/streaming/stream/active.rs`:
`InboundContext` (329-353), `InboundContext::new` (357-368), `handle_packet` (371-451), `pop_message`
(453-455), `can_close` (465-467) and the part of `Stream::poll` that moves payloads to the client socket
(1164-1265), CLOSE handling (832-846) and the plain-ACK branch
(1380-1433).

Simplifications: the ACK timer, RTT and tracing are omitted (they do not influence the payload data);
`u32` arithmetic is on `Nat` with an explicit `panic` outcome where `self.seq_nro + 1` overflows.

### `StreamSession`: The streams of one SAM session

The tasks that `StreamManager` (`emissary-core/src/sam/protocol/streaming/mod.rs`) keeps in its `JoinSet`, and what their ends do to the manager and to the session that
owns it. A task has the number that it got when it was spawned; the maps of the manager are those of Model/StreamManager.lean and left out here.

### `StreamTask`: The task of one stream

Models `emissary-core/src/sam/protocol/streaming/stream/active.rs`: `Stream` as a whole, `on_packet`, `shutdown`, and how `poll` begins, closes and ends. The sending half is
`Tx` (Model/StreamTx.lean), the receiving half `Inbound` (Model/StreamRx.lean). One `poll` is split into the steps it consists of; which of them happen, and in which
order, is for the socket, the network and the clocks to decide. Sequence numbers of own packets do not overflow in the model.

### `StreamTx`: Send half of an active I2P stream, and two endpoints joined by a network

Models `emissary-core/src/sam/protocol/streaming/stream/active.rs`: the sending fields of `Stream`
(`next_seq_nro`, `unacked`, `pending`, `window_size`), `handle_acks` (719-773), `packetize` (871-956),
`resend` (959-1048) and the "send pending packets" branch of `poll` (1285-1342).

Simplifications
* a packet is represented by its sequence number and payload; its acknowledgement fields are modelled by
  separate `emitAck` events because the receiver may emit them at any time;
* RTT/RTO/timers are replaced by oracles: which leading unacked packets have expired (`resend`);
* `event_tx.try_send` is an oracle (`oks`, missing entries mean success);
* `next_seq_nro` is a `Nat` (the theorems do not cover streams of more than 2^32 packets, where the debug
  build panics and the release build wraps).

### `Su3`: Reseeding

`emissary-util/src/su3.rs` and `reseeder.rs`: the first routers are fetched from a reseed server as a
signed archive.

### `TransitEnd`: How the transit manager ends

`TransitTunnelManager::poll` (`tunnel/transit/mod.rs` 774-885) around the steps of
`Model/TunnelBuild.lean`: when it tells the router that it is done and stops. The task of a tunnel is
taken to end by itself and not by a panic.

### `Transport`: Connections: `TransportManager`, `TransportService` and the router states of `TunnelManager`

Models /repo/emissary-core/src/transport/mod.rs and /repo/emissary-core/src/tunnel/mod.rs. Router ids are byte strings. Hash maps and
sets are functions. Metrics, logging, the router-info timer and the external address are not represented.

### `TunnelBuild`: Building tunnels

Models `tunnel/noise.rs` (118-186, 265-551, 654-814), `tunnel/hop/pending.rs` (99-538), `tunnel/transit/mod.rs` (168-885) and
`tunnel/garlic.rs` (96-228).

`P` are the primitives: `P.ks key iv n` is the ChaCha20 keystream (from block 1), `P.seal`/`P.unseal` ChaCha20-Poly1305,
`P.sha`, `P.hmac`, `P.dh`, `P.pub`. Keys are assumed to have the length the primitives want (HMAC-SHA-256 returns 32 bytes).
Random values and the clock are arguments. Zeroing of secrets, metrics and logging are not represented. A router hash is 32
bytes; `RouterId` is taken to be the hash.

### `TunnelData`: Tunnel data messages, fragmentation and layered encryption

Models `emissary-core/src/i2np/tunnel/data.rs` (lines 38-673), `tunnel/fragment.rs` (lines 79-206),
`TunnelKeys::decrypt_record` (`tunnel/noise.rs` 101-115), the layered decryption in
`tunnel/hop/{inbound,outbound}.rs`, `find_payload_start` (identical in `tunnel/transit/outbound.rs` 91-135 and
`tunnel/hop/inbound.rs` 91-138), the transit side of `tunnel/transit/{inbound,participant,outbound}.rs` and
CBC chaining (`crypto/aes/cbc.rs`, `crypto/aes/ecb.rs`).

Simplifications: SHA-256 and the AES-256 block function are parameters; random values (message id, IVs,
padding offsets) are inputs; the AES-CBC chaining of the `cbc` crate is written out over 16-byte blocks.  The
I2NP short header put around a tunnel data message is modelled in `Verif.Model.I2np`.

### `TunnelTest`: Tests of tunnels

Models the messages by which a tunnel pool tests its tunnels, `emissary-core/src/tunnel/pool/mod.rs` 736-834. Which tunnels are tested, and when, is in Model/Pool.lean; how the
message gets to the test when it comes back is in Model/PoolContext.lean.

### `Tunnels`: Server and client tunnels of the program

Models `emissary-cli/src/tunnel/server.rs` and `emissary-cli/src/tunnel/client.rs`. Simplifications: the
SAM server is an oracle; a file grows one byte at a time and the program may be killed between two
changes; the TCP backlog of a listener is a list of connections, which are reset when the listener is
closed; copying between the two streams is one event that ends well or not.

### `Util`: Small helpers every subsystem leans on

`emissary-core/src/util/mod.rs`: the shuffle, the test for a routable address, and the two
socket helpers that read or write a whole buffer.

## Properties

Status, theorems and what is missing. The statements are in `properties.jsonl`.

| Property | Status | Module | Theorems | Note |
|---|---|---|---|---|
| C01 Stream bytes arrive in order, without gaps, duplicates or corruption | proved | Stream | `C01_bytes_read_are_prefix_of_bytes_written`, `C01_receiver_reads_prefix_in_sequence_order` | closed loop with an arbitrary network, and the receiver against any consistent peer |
| C02 Stream bytes all arrive once every packet has arrived | proved | Stream | `C02_all_packets_received_all_bytes_ready`, `C02_quiescent_stream_delivered_everything` | any arrival order of all packets; and quiescent closed loop |
| C03 A stream acknowledges only packets it has received | partial | Details, Stream | `C03_close_partial`, `C03_closed_loop_acks_only_delivered_packets`, `C03_acks_only_received_packets_partial`, `C03_nack_limit_violated`, `C03_close_violated` | holds between two emissary endpoints and against any peer while at most 255 packets are missing; violated when more than 255 are missing (NACK list cut) and by the CLOSE packet (no NACKs) |
| C04 Look-ahead limit on sequence numbers | proved | Stream | `C04_refused_iff_too_far_ahead`, `C04_refused_packet_changes_nothing`, `C04_accepted_packet_adds_at_most_512_missing`, `C04_never_refuses_own_sender` | exact boundary, effect of a refusal, growth bound, and never hit by a peer running the same code |
| C05 Congestion window stays within 1..=128 and bounds unacknowledged packets | proved | Stream | `C05_window_bounds` | every history of writes, flushes, retransmissions and arbitrary acks |
| C06 Written data is retained until the peer acknowledges it | proved | Stream | `C06_written_data_retained_until_acked`, `C06_only_written_data_queued`, `C06_ack_releases_exactly_covered`, `C06_ack_of_unsent_data_ignored`, `C06_closed_loop_released_only_when_delivered` | every history of writes, flushes, retransmissions and arbitrary acks; closed loop version |
| C07 A close request never discards data that was sent before it | partial | Stream | `C07_close_overtakes_data_violated`, `C07_received_data_violated`, `C07_close_waits_for_known_gaps_partial` | violated: a close can overtake data, and data already received can be dropped when the socket is blocked; the proved part says the stream never ends while a known gap exists |
| C08 Data received before accept is delivered in order and without gaps | partial | Stream | `C08_pending_stream_gap_violated`, `C08_in_order_handover_partial`, `C08_pending_buffer_bounded` | violated under reordering before accept; proved for in-order arrival, plus the buffer bound |
| C09 STREAM ACCEPT and STREAM FORWARD are mutually exclusive | partial | Listener | `C09_handed_sockets_were_admitted`, `C09_accept_serves_one_stream`, `C09_pop_never_panics`, `C09_forward_excludes_accept`, `C09_refused_request_changes_nothing`, `C09_accepts_served_in_order`, `C09_forward_gets_every_stream_partial`, `C09_late_accept_kills_listener_violated`, `C09_failed_forward_kills_listener_violated`, `C09_failed_accept_blocks_forward_violated` | violated: an accept answer arriving after a forward was admitted, or a failed forward answer, kills the listener; exclusion, single use, order and no-panic are proved for every history |
| C10 Stream packets are delivered only to the stream they address | proved | StreamManager | `C10_packets_reach_only_their_stream`, `C10_inbound_streams_are_authenticated`, `C10_unknown_packet_ignored`, `C10_unsigned_syn_ignored` |  |
| C11 Streaming packet header round-trips | partial | StreamPacket | `C11_packet_roundtrip`, `C11_signed_packet_roundtrip`, `C11_peek_agrees`, `C11_signature_lost_without_destination_violated` | round trip for every packet whose signature, if any, comes with the destination; violated otherwise: a signature without destination is read as empty |
| C12 Tunnel fragmentation and reassembly is lossless | partial | TunnelFragment | `C12_reassembly_any_order`, `C12_message_survives_outbound_tunnel_partial`, `C12_message_survives_inbound_tunnel_partial`, `C12_oversized_message_never_delivered_violated` | proved end to end (cut, layers, reassembly in any order) up to 64 pieces; violated for every larger message: fragment numbers wrap silently and nothing is delivered |
| C13 Every tunnel data message has the fixed size | proved | TunnelData | `C13_tunnel_data_fixed_size` |  |
| C14 Reassembler emits a message only when every fragment is present | partial | TunnelFragment | `C14_only_complete_messages_partial`, `C14_missing_fragment_accepted_violated`, `C14_incomplete_message_never_dropped_violated` | violated with inconsistent fragment numbers, and incomplete messages are never dropped; otherwise what is handed over is exactly fragments 0..n |
| C15 Tunnel data payload framing is unambiguous | proved | Layout, TunnelData | `C15_whole_payload_consumed`, `C15_built_payload_is_found`, `C15_accepted_payload_is_checksummed` |  |
| C16 I2NP short-header framing round-trips | proved | I2np | `C16_short_header_roundtrip`, `C16_short_header_parse_exact`, `C16_short_header_empty_payload_rejected` |  |
| C17 I2NP standard-header framing round-trips | proved | I2np | `C17_standard_header_roundtrip`, `C17_standard_header_parse_exact` |  |
| C18 I2NP payload sizes are never silently truncated on the wire | partial | I2np | `C18_short_header_size_wraps_violated`, `C18_standard_header_size_wraps_violated`, `C18_size_field_exact_up_to_limit_partial` | violated: payloads over the 16-bit size field are truncated silently; proved exact up to the limit |
| C19 TunnelGateway, DeliveryStatus and search-reply messages round-trip | proved | I2np | `C19_tunnel_gateway_roundtrip`, `C19_delivery_status_roundtrip`, `C19_search_reply_roundtrip`, `C19_search_reply_parse_exact` |  |
| C20 Database lookup round-trips | proved | I2np | `C20_database_lookup_roundtrip`, `C20_database_lookup_too_many_excluded` |  |
| C21 Database store round-trips | proved | I2np, Layout | `C21_store_router_info_roundtrip`, `C21_store_lease_set_roundtrip`, `C21_extract_raw_router_info`, `C21_extract_raw_lease_set`, `C21_store_type_reserved_bits`, `C21_store_type_values` |  |
| C22 Garlic message blocks round-trip | proved | Garlic, Layout | `C22_garlic_message_roundtrip`, `C22_padding_block_parsed`, `C22_ack_block_exact`, `C22_garlic_tag` | every block kind the builder supports; padding parsed |
| C23 Short tunnel build records round-trip and have a fixed size | proved | BuildRecord, Layout | `C23_short_record_size`, `C23_short_record_roundtrip`, `C23_build_message_layout` |  |
| C24 I2P strings round-trip | proved | Primitives | `C24_string_roundtrip`, `C24_string_parse_exact`, `C24_checked_string_roundtrip` |  |
| C25 I2P mappings round-trip | proved | Layout, Primitives | `C25_mapping_layout`, `C25_mappings_roundtrip`, `C25_into_hashmap_last_wins`, `C25_announced_size_overrun_violated` | round trip; the announced size is not enforced (shown separately) |
| C26 Destination parsing is the inverse of its serialization | proved | Primitives | `C26_destination_parse_exact`, `C26_new_destination_roundtrip` |  |
| C27 Router identity parsing keeps the wire image | proved | Primitives | `C27_router_identity_parse_exact`, `C27_new_identity_roundtrip` |  |
| C28 Lease set round-trips | partial | Primitives | `C28_built_lease_set_roundtrip_partial`, `C28_parsed_lease_set_expiry_changes_violated` | violated: the header expiration is an offset in built lease sets and an absolute time in parsed ones; the rest round-trips |
| C29 Lease set is accepted only with a valid signature over all preceding bytes | proved | Primitives | `C29_lease_set_signature` |  |
| C30 NTCP2 session message blocks round-trip | proved | Layout, Ntcp2 | `C30_options_extra_skipped`, `C30_termination_extra_skipped`, `C30_blocks_roundtrip`, `C30_whole_frame_consumed`, `C30_complete`, `C30_emitted_blocks` |  |
| C31 NTCP2 handshake options round-trip | proved | Ntcp2 | `C31_initiator_options_roundtrip`, `C31_responder_options_roundtrip` |  |
| C32 NTCP2 frame reader is independent of TCP segmentation | partial | Layout, Ntcp2Session | `C32_termination_reason`, `C32_segmentation_independent_partial`, `C32_two_segmentations_agree_partial`, `C32_unparseable_frame_desynchronises_violated` | violated by authentic frames that do not parse (the reader loses frame alignment, in a way that depends on segmentation); otherwise proved for every segmentation |
| C33 NTCP2 length obfuscation stays synchronised | proved | Ntcp2 | `C33_lengths_stay_synchronised` |  |
| C34 AEAD nonces never repeat under one key | proved | Ntcp2 | `C34_nonces_never_repeat`, `C34_exhaustion_is_an_error` |  |
| C35 SSU2 acks cover only received packets | partial | Ssu2Ack | `C35_acks_exactly_received_partial`, `C35_top_range_sound_partial`, `C35_order_independent`, `C35_long_gap_acks_unreceived_violated` | violated: a gap or run of more than 255 packets makes the block acknowledge packets that never arrived; exact otherwise, and the top range is always sound |
| C36 SSU2 fragment reassembly is lossless | proved | Ssu2Fragment | `C36_reassembly_any_order` |  |
| C37 SSU2 duplicate filter never reports a fresh message as duplicate and remembers recent ones | partial | Ssu2Fragment | `C37_fresh_iff_not_accepted_recently_partial`, `C37_fresh_accepted`, `C37_duplicate_in_generation_rejected`, `C37_rejected_not_remembered_violated` | violated: a duplicate rejected in one generation is not remembered in the next; fresh identifiers are never rejected and accepted ones are remembered for two generations |
| C38 SSU2 block parsing accepts exactly well-formed block sequences | partial | Ssu2Block | `C38_blocks_roundtrip`, `C38_serializer`, `C38_other_types`, `C38_accepts_exactly_block_sequences`, `C38_release_never_panics_partial`, `C38_checked_panics_iff`, `C38_panic_violated`, `C38_size_field_not_honoured_violated` | violated in builds with overflow checks and debug assertions, and the size field of an ACK block is ignored; the parser accepts exactly the block sequences, inverts the serializer and never panics in release builds |
| C39 Bloom filter has no false negatives | proved | Ssu2Fragment | `C39_no_false_negatives`, `C39_fresh_filter_accepts` |  |
| C40 XOR distance is a metric and identifies keys | proved | Netdb | `C40_symmetric`, `C40_zero_iff_equal`, `C40_triangle`, `C40_unidirectional`, `C40_first_byte_decides` |  |
| C41 K-buckets are bounded and never hold a router twice | proved | Netdb | `C41_buckets_bounded_and_distinct`, `C41_eviction`, `C41_responsive_router_stays` |  |
| C42 Closest-router lookups return distinct routers sorted by distance | partial | Netdb | `C42_lookup_returns_nearest_in_order`, `C42_closest_is_lookup`, `C42_results_distinct_partial`, `C42_router_returned_twice_violated`, `C42_get_closest`, `C42_get_n_closest` | Order, completeness and filtering are proved for every table; distinctness holds unless the table holds the router at distance 1 from the local one, which every lookup near it returns twice (bucket 0 is visited twice): proved as C42_router_returned_twice_violated. |
| C43 Transit tunnel limit is never exceeded | proved | TunnelTransit | `C43_limit_holds`, `C43_disabled_has_none`, `C43_none_accepted_after_shutdown`, `C43_accepts_only_with_room` | that a refusal carries code 30 is part of C101 |
| C44 A tunnel id is owned by at most one transit tunnel | proved | Routing | `C44_ids_are_not_taken_over`, `C44_messages_go_to_the_owner`, `C44_dropped_receiver_is_noticed`, `C44_owner_receives_in_order` |  |
| C45 Tunnel build replies reach their listener exactly once | proved | Routing | `C45_id_given_while_free`, `C45_listener_hears_the_first_message_once`, `C45_other_messages_go_to_transit` |  |
| C46 Layered tunnel encryption cancels out | proved | TunnelCrypto | `C46_outbound_layers_cancel`, `C46_inbound_layers_cancel`, `C46_forwarded_size` |  |
| C47 Tunnel participation counters are exact | partial | Selector | `C47_counts`, `C47_exact_partial`, `C47_pool_shutdown_violated` | in every history the counts are those of the active tunnels plus the tunnels lost when a pool shut down or an id was used twice; exact if neither happens; after a pool with tunnels shuts down the counts stay too high for ever (proved) |
| C48 Selected tunnel hops are distinct and in distinct subnets | partial | Selector | `C48_subnets`, `C48_secure_partial`, `C48_same_router_violated`, `C48_insecure_partial`, `C48_insecure_violated` | each hop has its own subnet in which it has an address; distinct if no router has addresses in two subnets; a router with two subnets can be chosen twice, and insecure mode can choose the same router twice (proved) |
| C49 Router reachability profile reflects recent failures | partial | Profile | `C49_declining_partial`, `C49_unreachable_violated`, `C49_times_recorded_partial`, `C49_counters_partial`, `C49_failing_partial`, `C49_standing_partial` | violated for unreachability: a recent dial failure counts as reachable and an old one as unreachable; declining and what is recorded are proved |
| C50 Every known reachable router is selectable from some profile bucket | partial | Profile | `C50_known_routers_partial`, `C50_new_routers_violated`, `C50_fresh_partial`, `C50_never_lost_partial`, `C50_two_buckets_violated`, `C50_maintained_partial` | violated: routers without statistics are left out once others have some, and a re-added router is in two buckets; proved for routers with statistics, for fresh storages, over histories and after maintenance |
| C51 Routing paths never use expired or removed tunnels | partial | RoutingPath, RoutingPathExpire, RoutingPathLease, RoutingPathRun | `C51_outbound_choice`, `C51_lease_choice`, `C51_expiring_partial`, `C51_lease_partial`, `C51_dead_end_violated`, `C51_expired_lease_violated`, `C51_collision_violated`, `C51_faulty_last`, `C51_outbound_partial`, `C51_no_panic_partial` | choice of tunnels proved; the outbound tunnel of a path is live if tunnels are announced in order, ids of leases and outbound tunnels differ and no event was dropped from a full queue; the lease has 30 s left unless a request for a new path failed: then (violated) the old path stays and its lease may have expired for any time; violated too: a lease with the id of the outbound tunnel makes the next request panic |
| C52 Message dispatch delivers every inbound message to exactly one subsystem in order | partial | Routing | `C52_batch_is_partitioned_partial`, `C52_every_message_delivered_in_order_partial`, `C52_full_queue_loses_messages_violated` | violated when a subsystem falls behind: a batch for a full queue is lost; proved as long as there is room |
| C53 Graceful shutdown completes exactly when every subsystem has finished | proved | Routing | `C53_complete_iff_every_subsystem_finished` | the event manager, which can also end the router, is not modelled |
| C54 Session tags are single use | proved | Session | `C54_counts`, `C54_single_use` | for tags that are generated once; the number of times a tag is found never exceeds the number of times it was generated |
| C55 Tag set keys and tag indices never repeat | proved | Ratchet | `C55_increasing`, `C55_stops`, `C55_stops_ratchet`, `C55_keys` |  |
| C56 DH ratchet key ids advance in lock-step | partial | Ratchet | `C56_no_wrap`, `C56_lockstep_partial`, `C56_terminates_partial`, `C56_advances_partial`, `C56_stale_violated`, `C56_stale_keys_violated`, `C56_duplicate_violated`, `C56_unasked_violated` | lock-step is proved for every schedule in which a waiting sender is not given an answer to an older request; without that condition it is refuted (old key accepted, debug panic or unusable set) |
| C57 Router infos and router addresses round-trip | proved | Layout, RouterInfo | `C57_published_address_preferred`, `C57_parse_addresses`, `C57_router_address_roundtrip`, `C57_router_info_roundtrip` |  |
| C58 Router infos are accepted only when signed by their own identity | proved | RouterInfo | `C58_router_info_signature` | assumes a signature check that only accepts 64-byte signatures |
| C59 Transient signing keys are accepted only when certified and unexpired | partial | RouterInfo | `C59_transient_key_is_certified_partial`, `C59_certified_transient_key_accepted_partial`, `C59_expired_transient_key_accepted_violated`, `C59_dsa_destination_never_accepted_violated` | violated: an expired transient key is accepted, and a DSA destination can never certify one |
| C60 Lease set liveness | proved | RouterInfo | `C60_lease_set_live_iff`, `C60_expiration_is_earliest` |  |
| C61 Unsupported garlic blocks are ignored | partial | Garlic | `C61_unsupported_block_skipped_partial`, `C61_trailing_unsupported_block_drops_message_violated` | violated: an unsupported block at the end of a message makes the whole message unparseable |
| C62 Every well-formed variable build record is understood | partial | BuildRecord | `C62_variable_record_parsed_partial`, `C62_variable_record_options_rejected_violated` | violated: records whose options mapping takes more than 64 bytes are rejected; proved up to 64 |
| C63 Outbound streams connect only to the requested destination | partial | StreamHandshake | `C63_outbound_streams_were_requested_partial`, `C63_any_destination_completes_connection_violated` | violated: any destination that knows the id completes the connection; proved that every outbound stream was requested and answered by a signed SYN |
| C64 A stream is unregistered only when it ends or its own session is removed | partial | StreamHandshake | `C64_active_streams_kept_partial`, `C64_remove_session_drops_other_stream_violated`, `C64_late_completion_drops_new_stream_violated` | violated by stale ids in remove_session and by late completions; the other operations never unregister a stream |
| C65 The stream handshake completes between two endpoints | proved | StreamHandshake | `C65_syn_accepted`, `C65_syn_waits_for_listener`, `C65_syn_ack_completes` |  |
| C66 Stream manager shutdown | partial | StreamHandshake | `C66_no_new_streams_while_shutting_down`, `C66_shutdown_when_last_stream_finishes_partial`, `C66_shutdown_without_streams_waits_for_timer_violated`, `C66_stream_opened_after_shutdown_violated` | violated without running streams (60 s timer) and after the forced shutdown (streams accepted); proved when every running stream is registered |
| C67 A retried SYN is answered | partial | StreamHandshake | `C67_repeated_syn_unanswered_violated` | violated: the repeated SYN is ignored |
| C68 NTCP2 messages arrive in order and exactly once | partial | Layout, Ntcp2Session | `C68_only_expired_dropped`, `C68_in_order_exactly_once_partial`, `C68_oversized_message_misframed_violated` | proved for messages of at most 65,507 bytes of payload; larger ones are announced with a truncated length |
| C69 A connection request uses a free stream id | proved | StreamHandshake | `C69_new_stream_takes_free_id` |  |
| C70 A connection request is retried a bounded number of times | proved | StreamHandshake | `C70_connection_attempts_bounded`, `C70_unanswered_request_is_rejected` |  |
| C71 SSU2 acknowledgement state is bounded by what was received | partial | Ssu2Ack | `C71_ack_state_unbounded_violated` | violated: the state has one entry for every packet number up to the highest received, so one packet can make it hold 2^32 - 1 entries |
| C72 An SSU2 message is delivered exactly once | partial | Ssu2Fragment | `C72_delivered_exactly_once_partial`, `C72_message_lost_violated` | violated: a payload of 1,190 to 1,200 bytes is sent as a single unfinished fragment and never delivered; proved for every other size |
| C73 Router capabilities are read as specified | proved | Layout | `C73_socket`, `C73_reachable`, `C73_capability_letters`, `C73_speed` |  |
| C74 An SSU2 packet is read back by its addressee | partial | Ssu2Packet | `C74_data_packet_delivered`, `C74_contents_delivered`, `C74_retry_token_violated`, `C74_retry_token_example_violated` | violated for the token of Retry (byte order reversed); everything else is read back |
| C75 Both ends of an SSU2 handshake agree | proved | Ssu2Handshake | `C75_handshake_agreement`, `C75_keys_per_specification` |  |
| C76 No datagram crashes the SSU2 socket | partial | Ssu2Packet | `C76_datagram_panics_violated`, `C76_long_and_short_datagrams_partial` | violated for 40 to 63 byte datagrams; proved for shorter than 24 and at least 64 |
| C77 Closing an SSU2 session tells the peer | partial | Ssu2Packet | `C77_termination_panics_violated` | violated: building the termination packet always panics |
| C78 SSU2 packets go to the session they are addressed to | partial | Ssu2Packet | `C78_own_key`, `C78_dialled_key_partial`, `C78_only_the_addressee`, `C78_dialled_packet_dropped_violated` | violated for packets of a dialled router that happen to decode under the router's own key; the rest is proved |
| C79 An inbound SSU2 session is with the router it is reported as | partial | Ssu2Handshake | `C79_impersonation_violated` | violated: the static key is not compared with the router info |
| C80 A dialled SSU2 session is reported under the dialled router's id | partial | Ssu2Handshake | `C80_dialled_id_violated` | violated: the local router id is recorded |
| C81 A stray packet does not end an SSU2 handshake | partial | Ssu2Handshake | `C81_bad_packet_ends_dial_violated`, `C81_bad_packet_ends_accept_violated`, `C81_any_error_is_final_violated` | violated: any unexpected packet poisons the handshake |
| C82 Every SSU2 handshake ends | partial | Ssu2Handshake | `C82_bounded_retransmission`, `C82_schedules`, `C82_inbound_never_times_out_violated` | violated for a responder waiting for the session request; the retransmission schedules are proved |
| C83 An SSU2 responder checks the token | partial | Ssu2Handshake | `C83_any_token_accepted_violated` | violated: any token is accepted |
| C84 SSU2 nonces are never reused | partial | Ssu2Packet | `C84_nonces_distinct_partial`, `C84_nonce_reuse_violated` | violated after 2^32 packets without overflow checks; proved below that |
| C85 Both ends of an NTCP2 handshake agree | proved | Ntcp2Handshake | `C85_handshake_agrees`, `C85_session_carries_messages` |  |
| C86 NTCP2 sessions stay within the network and the allowed addresses | proved | Ntcp2Handshake | `C86_accepted_router_is_on_network`, `C86_other_network_or_version_refused`, `C86_not_dialled` |  |
| C87 An inbound NTCP2 session is with the router it is reported as | partial | Ntcp2Handshake | `C87_static_key_not_bound_violated` | violated: the static key of the handshake is not compared with the router info |
| C88 A peer cannot crash the router with NTCP2 handshake bytes | partial | Ntcp2Handshake | `C88_accept_never_panics`, `C88_dial_never_panics_partial`, `C88_large_router_info_panics_violated` | accepting never panics; dialling panics with overflow checks if the own router info has 65516 bytes or more |
| C89 Replayed and stale NTCP2 session requests are refused | partial | Ntcp2Handshake | `C89_stale_request_answered_violated` | violated: neither the time nor earlier requests are looked at |
| C90 The start-up table keeps the best-performing floodfills | proved | Netdb | `C90_best_floodfills_kept` |  |
| C91 At most one connection per router | proved | Transport | `C91_at_most_one_connection` |  |
| C92 A router is not dialled or looked up twice at once | proved | Transport | `C92_not_dialled_twice_at_once` |  |
| C93 A router can be reached again after its connection closed | partial | Transport | `C93_locked_out_forever_violated` | violated: a connection we dialled that is turned down because another is open leaves the router marked as pending for good |
| C94 A request to connect leads to a dial, a lookup or a reported failure | partial | Transport | `C94_request_starts_a_dial_partial`, `C94_request_forgotten_violated` | violated if the query channel is full, or after C93; proved otherwise |
| C95 Messages to a router are handed over in order and confirmed only then | proved | Transport | `C95_sent_in_order_and_confirmed_when_handed_over` |  |
| C96 Messages to an unconnected router wait for the connection | proved | Transport | `C96_messages_kept_while_dialling`, `C96_first_message_dials` |  |
| C97 Messages to a connected router are sent | partial | Transport | `C97_connection_forgotten_violated` | violated: a failure reported while connected makes the manager forget the connection; C96 covers the other histories |
| C98 Every message from a peer is dispatched by its type | partial | Transport | `C98_received_message_partial`, `C98_peer_message_panics_violated`, `C98_duplicates_routed_violated` | violated: some message types trip a debug assertion, and the duplicate filter is switched off |
| C99 Every garlic clove is delivered according to its instructions | partial | Transport | `C99_clove_for_other_router`, `C99_clove_for_this_router_violated` | violated for cloves addressed to this router |
| C100 A message sent by the router goes to the router it names | partial | Transport | `C100_send_partial`, `C100_send_with_feedback_partial`, `C100_local_feedback_violated` | violated: local messages are confirmed even if they are lost |
| C101 A tunnel build tells the creator what every router decided | proved | TunnelBuild, TunnelBuildIn | `C101_outbound_build`, `C101_inbound_build` | assuming that no record of an earlier hop happens to start with the hash of a later one |
| C102 A tunnel that was built carries messages | proved | TunnelTransit | `C102_tunnels_linked`, `C102_outbound_tunnel_carries_messages`, `C102_inbound_tunnel_carries_messages` |  |
| C103 A failed build blames the router that failed it | partial | TunnelTransit | `C103_failure_report_violated`, `C103_failure_report_mirrored`, `C103_failure_report_partial` | violated: the answers are given to the hops in reverse order; fair when they read the same both ways |
| C104 Transit tunnels stay reachable until they end | proved | TunnelTransit | `C104_tunnels_reachable` | provided other parts of the router do not remove ids of transit tunnels |
| C105 No message stops the handling of transit tunnels or of builds | partial | TunnelTransit | `C105_short_garlic_violated`, `C105_short_garlic_reply_violated`, `C105_other_messages_partial`, `C105_other_replies_partial` | violated by garlic messages shorter than 12 bytes (log line, slice); proved for all others |
| C106 The options of a build reply are empty | partial | TunnelTransit | `C106_reply_options_violated` | violated for every request: the length is written at the offset of an unstripped record |
| C107 Expired and repeated build requests are refused | partial | TunnelTransit | `C107_expired_request_violated`, `C107_replayed_request_violated` | violated for every request |
| C108 Profile bookkeeping never fails | partial | Profile | `C108_never_fails`, `C108_lookup`, `C108_clock_violated` | proved for every history and total filter; violated if the clock is set back (lookups subtract times) |
| C109 A router's profile is what was recorded about it | proved | Profile | `C109_profile_is_history` |  |
| C110 A tunnel is established exactly if every hop agrees | proved | TunnelReply | `C110_established_iff_all_agree`, `C110_no_reply_no_tunnel`, `C110_failure_names_someone` |  |
| C111 Long build requests are answered truthfully | proved | TunnelReply | `C111_long_request_answered` |  |
| C112 Backups are complete | proved | Profile | `C112_backup_complete` |  |
| C113 Hop selection finds hops when there are any | proved | Selector | `C113_enough`, `C113_total`, `C113_failing_last`, `C113_ready`, `C113_records` | secure mode |
| C114 Garlic session establishment agrees on keys | proved | Ecies, SessionTags | `C114_request_spec`, `C114_request`, `C114_established`, `C114_numbers`, `C114_recipient` | for lawful sealing and symmetric Diffie-Hellman; Elligator2 is assumed to decode what it encodes for the keys drawn; no two tags watched for are equal for the last part |
| C115 Garlic messages are readable in any order, each once | partial | SessionTalk, SessionWindow | `C115_sent_partial`, `C115_delivery_partial`, `C115_readable_partial`, `C115_damaged_partial`, `C115_unreadable_partial`, `C115_deaf_violated`, `C115_encrypt_partial`, `C115_initiator_partial` | proved for one tag set (below the ratchet threshold), for sending and for receiving in any order with any losses within the window, and over any number of ratchets for messages in order (C271); violated: after as many consecutive losses as tags are watched for, the session is deaf for good; missing: losses across a ratchet |
| C116 Requests for garlic sessions are not replayable | partial | SessionFaults | `C116_replay_violated`, `C116_replay_keeps_partial` | violated: an accepted request is accepted again and its contents are delivered again; tags of established sessions are used once (C54) |
| C117 Bad or late messages do not disable a destination | partial | SessionCrash, SessionFaults | `C117_left_violated`, `C117_late_reply_violated`, `C117_damaged_reply_violated`, `C117_damaged_first_violated`, `C117_broken_violated`, `C117_broken_receive_violated` | violated: a reply or first message that cannot be decrypted, or a reply to an attempt that was given up, breaks the pending session, which refuses everything until it expires; damage to established sessions is harmless (C115_damaged_partial) |
| C118 Received garlic messages do not abort the program | partial | SessionCrash | `C118_short_violated`, `C118_ack_violated`, `C118_short_reply_violated`, `C118_release_partial` | violated: messages under 12 bytes abort; with assertions on, acknowledgments in requests and short replies too; proved without assertions for messages of at least 12 bytes in every reachable state, if every representative decodes |
| C119 Sessions are established whoever opens them | partial | SessionChat, SessionOpen, SessionPair | `C119_conversation_partial`, `C119_established_partial`, `C119_first_messages_partial`, `C119_simultaneous_violated` | violated if both open at the same time: no session until the attempts expire; proved: every message sent before a session exists is delivered with the lease set; if one side opens, with any number of requests and replies, whichever arrive first, a session is established both ways, and every conversation up to the first ratchet is delivered in any order, and over any number of ratchets in order (C271) |
| C120 A destination that restarts can be reached | partial | SessionPair | `C120_restart_violated` | violated: the peer goes on with the old session |
| C121 Peers get the newest lease set | partial | SessionPair, SessionUpkeep | `C121_bundled_partial`, `C121_older_ack_violated`, `C121_publish_partial` | violated: an acknowledgment of an older lease set cancels the newer one; proved that messages carry the newest one until then, and that publishing sends it if and only if no acknowledgment is awaited |
| C122 Sessions in use are kept | partial | SessionPair | `C122_kept_partial`, `C122_sending_violated` | violated: sessions that only send are dropped, without an event; proved that recent receipt or sending of the lease set keeps a session |
| C123 Every reply to a session request is readable | partial | SessionPair | `C123_tags_partial`, `C123_later_reply_violated` | violated from the seventeenth reply on; the tags of the first ones are watched for |
| C124 Unreachable remotes are given up after three failed queries in a row | proved | RoutingPathQuery | `C124_gives_up`, `C124_asks` |  |
| C125 Lease set queries are shared and answered | proved | RoutingPathQuery | `C125_one_query`, `C125_answered` |  |
| C126 What is kept of a remote's leases is bounded | partial | RoutingPathExpire, RoutingPathQuery | `C126_handle_fresh`, `C126_copies_violated`, `C126_fresh` | violated: every store of the same lease set is kept again until it expires; proved: only announced and unexpired leases are kept |
| C127 Maintenance of garlic sessions forgets what is too old and nothing else | proved | SessionUpkeep | `C127_tags`, `C127_session` | reply tags of an idle session that is dropped by the first maintenance after ten minutes are not among those forgotten |
| C128 Messages that arrive through a pool's tunnels reach whoever waits for them | partial | PoolContext | `C128_once`, `C128_right`, `C128_reply`, `C128_garlic`, `C128_owner`, `C128_short_garlic_violated`, `C128_safe_partial` | deliveries proved for all histories; violated: a garlic message of less than twelve bytes panics; that nothing else does is proved for release builds |
| C129 A pool does not have more tunnels than configured | partial | PoolFaults, PoolSize | `C129_late_violated`, `C129_bound_partial` | proved if nothing is late by more than fifteen seconds; violated without: an inbound tunnel that ends before its rebuild timer is seen makes the pool build one tunnel too many for good |
| C130 A pool is refilled | proved | PoolUpkeep | `C130_total`, `C130_refill`, `C130_ten_seconds` |  |
| C131 The owner of a pool knows its tunnels | partial | Pool, PoolFaults | `C131_order`, `C131_view_partial`, `C131_lost_violated` | proved while no event was lost; violated: an event is lost for good when the owner's queue of 64 is full |
| C132 A pool's ids in the routing table are those of its tunnels | partial | PoolTable | `C132_table`, `C132_shutdown_violated` | proved while the pool runs; violated on shutdown: tunnels being built stay in the routing table and all tunnels in the selector |
| C133 Tunnel tests end while the tested tunnels exist | proved | PoolTests | `C133_no_panic` |  |
| C134 A pool runs until its owner shuts it down | partial | PoolFaults, PoolTests | `C134_crash_violated`, `C134_runs_partial` | proved if no inbound tunnel panics; violated: a panic of one inbound tunnel's task silently ends the pool |
| C135 Every network database query is settled exactly once and in time | proved | NetdbSettle, NetdbTime | `C135_once`, `C135_in_time` |  |
| C136 A query ends only with its own outcome | partial | NetdbQuery | `C136_mismatch_violated`, `C136_overwrite_violated`, `C136_busy_violated`, `C136_cause_partial` | violated: a store of the other kind, or a fetch for the same key, cancels a query, and a request for a key that is being fetched is cancelled at once; proved: nothing else cancels one |
| C137 A lease set query is answered with the lease set asked for | partial | NetdbSource | `C137_violated`, `C137_source_partial` | violated: whatever lease set is stored under the key is the answer, even of another destination or expired; proved: an answer was stored under the key after the request |
| C138 No floodfill is asked twice for the same query | partial | NetdbAsk | `C138_lease_set`, `C138_router_info_violated`, `C138_first` | proved for lease sets; violated for router infos |
| C139 The network database dials a router once and loses no message to it | partial | NetdbSend | `C139_dial_once`, `C139_kept`, `C139_flush`, `C139_connected_partial`, `C139_answer_violated` | violated for direct answers to lookups, which are lost without a connection; all else proved |
| C140 A floodfill answers every lookup once | partial | NetdbServe | `C140_lease_set`, `C140_router_info`, `C140_exploration`, `C140_not_floodfill`, `C140_any_violated` | violated for lookups that do not say what they look for, which are not answered; all other lookups proved |
| C141 A floodfill serves the lease sets stored with it while they are valid | partial | NetdbServe | `C141_stored`, `C141_expired`, `C141_served_partial`, `C141_pruned`, `C141_early_violated`, `C141_replaced_violated` | violated: dropped when the first lease expires, and replaced by older lease sets or those of other destinations; proved: served until the first expiration |
| C142 A floodfill serves current router infos | partial | NetdbServe | `C142_accepted_partial`, `C142_forever_violated`, `C142_foreign_violated` | violated: never removed, and stored under any key; proved: only recent ones of this network are accepted |
| C143 Router infos are checked before they are believed | partial | NetdbOut | `C143_checked_partial`, `C143_query_violated`, `C143_age_violated` | violated for answers to queries (no check) and fetched ones (age); proved for the rest |
| C144 Whoever waits for the network database to be ready is told once | proved | NetdbOut | `C144_ready` |  |
| C145 Lookups are spread evenly over live tunnels | proved | NetdbOut | `C145_fair`, `C145_live` |  |
| C146 Routers that know few others explore more often | partial | NetdbOut | `C146_interval`, `C146_interval_violated`, `C146_explores`, `C146_floodfill`, `C146_fetches` | violated: the two intervals are swapped; the rest proved |
| C147 A floodfill is charged with a timeout only if it did not answer in time | partial | NetdbCharge | `C147_asked_partial`, `C147_early_violated` | violated: the timer of an answered lookup ends a later one for the same key; proved: only floodfills that were asked are charged |
| C148 A floodfill acknowledges and floods what it accepts, and only that | partial | NetdbOut | `C148_silent`, `C148_refused`, `C148_flooded`, `C148_published`, `C148_twice_violated` | violated: the same floodfill may be sent a record twice; the rest proved |
| C149 One query per remote, one outcome per query | proved | Destination | `C149_one`, `C149_status`, `C149_answered`, `C149_tries`, `C149_outcome` |  |
| C150 Messages go to leases that were announced for their remote | partial | DestinationHold, DestinationSend | `C150_no_panic`, `C150_debug_violated`, `C150_latest`, `C150_known`, `C150_send`, `C150_announced` | violated in debug builds: a short data message stops the program (C150_debug_violated); the rest is proved |
| C151 Messages that wait for a lease set are kept and sent when it is found | partial | DestinationHold, DestinationLimits | `C151_conserved`, `C151_released`, `C151_overtaken_violated`, `C151_stuck_violated` | violated: later messages overtake (C151_overtaken_violated), and messages can wait although the remote is reachable (C151_stuck_violated); conservation and release are proved |
| C152 A lease set is only replaced by a newer one of the same remote | partial | DestinationLimits | `C152_signed_partial`, `C152_stale_violated`, `C152_foreign_violated` | violated: expired lease sets replace valid ones, and answers may be of someone else; proved: messages change it only to one the remote signed |
| C153 A routing path works until its lease expires | partial | DestinationLimits | `C153_kept_partial`, `C153_refreshed_violated` | violated: an answer of the database forgets earlier leases; proved for replacements by the remote |
| C154 The user gets the data messages of a garlic message in order | proved | DestinationLimits | `C154_messages` |  |
| C155 A routing path that asks for a lease set is answered | partial | DestinationLimits | `C155_told_partial`, `C155_asked_partial`, `C155_routes_partial`, `C155_dropped_violated` | violated: no query and no answer while the known lease set is valid; proved: the end of a query answers all |
| C156 An unpublished destination stays unpublished | proved | Publisher | `C156_unpublished` |  |
| C157 A lease set is published to the closest floodfill with the current content | proved | Publisher, PublisherKnown | `C157_closest`, `C157_current`, `C157_known`, `C157_learned`, `C157_remembered` |  |
| C158 Publishing is paced | proved | PublisherPace | `C158_paced`, `C158_started` | restricted to histories without new tunnels, as the claim says; an example shows that new tunnels break the pace |
| C159 Publishing stops when the lease set is seen, and only then | partial | PublisherLimits | `C159_confirmed_partial`, `C159_forged_violated`, `C159_other` | violated: any lease set under the destination's key, whatever is in it, stops the publisher during a verification |
| C160 Publishing never gets stuck and never spins | proved | PublisherLimits | `C160_poll_ends`, `C160_waits`, `C160_soon`, `C160_again` | the 15 seconds are counted while there are a tunnel, a floodfill and room in the tunnel pool |
| C161 A destination outlives a moment without floodfills | partial | PublisherLimits | `C161_ends_violated`, `C161_only_partial` | violated: a dropped request ends the publisher; C161_only_partial: nothing else does |
| C162 Messages of strangers do not choose where a lease set is published | partial | PublisherLimits | `C162_steered_violated`, `C162_other_partial` | violated: one unauthenticated search reply chooses the next router; replies for other keys change nothing |
| C163 A SAM client gets what it was sent, in order and complete | proved | SamSocket | `C163_order`, `C163_kept`, `C163_flushed` |  |
| C164 The commands of a SAM client are the lines that it sent | partial | SamSocket | `C164_lines_partial`, `C164_first_partial`, `C164_together_violated`, `C164_stale_violated`, `C164_long_violated` | holds for the first line and for lines that arrive one by one; violated for lines that arrive together, for lines that arrive in parts after a longer one, and for long lines |
| C165 A SAM command means what it says | partial | SamOptions, SamParser | `C165_forward`, `C165_hyphen_violated`, `C165_escaped_violated`, `C165_empty_violated`, `C165_value_ends`, `C165_hello`, `C165_versions`, `C165_create_partial`, `C165_keys_partial`, `C165_short_keys`, `C165_refused`, `C165_accept`, `C165_connect`, `C165_lookup`, `C165_generate` | holds for keys and values of the usual form; violated: an option with a hyphen hides all options after it, escapes are not undone, empty quoted values |
| C166 SAM hosts: what a client connects to, and no command crashes the router | partial | SamHost | `C166_b32`, `C166_ending_violated`, `C166_length_violated`, `C166_name`, `C166_dest`, `C166_no_panic` | no command panics and the three forms are understood; violated: text after .b32.i2p is ignored and ids of any length are accepted |
| C167 SAM datagrams: what is sent where, and no datagram crashes the router | partial | SamHost | `C167_read_partial`, `C167_panic_violated` | well-formed datagrams are understood; violated: a datagram of fewer than four bytes stops the router |
| C168 No two SAM sessions share a name or a destination | proved | SamServer | `C168_distinct`, `C168_name`, `C168_destination` |  |
| C169 A SAM name and destination can be used again after their session | partial | SamServer | `C169_ended_partial`, `C169_new`, `C169_failed_violated` | violated: a session that fails while it waits for tunnels blocks its name and destination for ever; proved for sessions that were in use and for new names |
| C170 Every SAM command is answered or passed to its session | partial | SamServer | `C170_passed_partial`, `C170_unanswered_violated`, `C170_datagrams`, `C170_names`, `C170_bookless_violated`, `C170_unterminated_violated`, `C170_refused_violated` | violated: commands for missing, waiting or busy sessions, host names without an address book and refused tunnel pools get no answer, and answers about duplicates lack the line feed; proved otherwise |
| C171 One client cannot bring the SAM server down | partial | SamServer | `C171_short_violated`, `C171_crash_violated`, `C171_running_partial` | violated: a datagram of fewer than four bytes or a panic in one task ends the server; proved that nothing else does |
| C172 A SAM session is started with tunnels | proved | SamPending | `C172_ready`, `C172_soon`, `C172_fails` |  |
| C173 Datagrams for SAM clients are written in order | partial | SamPending | `C173_order`, `C173_lost_violated` | violated: a datagram whose write fails is lost; proved otherwise |
| C174 A SAM client that looks up a name gets one answer | partial | SamNaming | `C174_once`, `C174_texts`, `C174_now`, `C174_answered_partial`, `C174_book`, `C174_twice_violated` | violated: a second lookup that needs the same lease set replaces the first, which is never answered |
| C175 A SAM session sends datagrams in order | proved | SamStreams | `C175_order`, `C175_sent`, `C175_kinds` | datagrams whose lease set is not found are discarded, see the hypothesis of C175_order |
| C176 A SAM client that wants a stream gets it or an answer | partial | SamStreams | `C176_once`, `C176_opened_partial`, `C176_unterminated_violated`, `C176_dropped_violated`, `C176_kind_violated`, `C176_kept_partial`, `C176_self` | violated: sockets waiting for a lease set are dropped when another stream to the destination is opened or rejected; answers after a failed query lack the line feed; datagram sessions drop sockets |
| C177 A SAM datagram arrives as it was sent, with its true sender | partial | Datagram | `C177_delivered_partial`, `C177_exact`, `C177_forged_violated`, `C177_ports_violated`, `C177_port_violated`, `C177_lost_violated`, `C177_dsa_violated` | violated: signatures are not checked, ports are swapped, a port that is not a number stops the session, DSA signatures are cut wrongly, a full channel loses datagrams |
| C178 An I2CP payload is read as it was built | proved | Datagram | `C178_roundtrip`, `C178_built`, `C178_refused` | gzip is a parameter with the assumption Gzip.Ok |
| C179 Messages of an I2CP client are seen as they were sent | partial | I2cpSocket | `C179_order`, `C179_all_partial`, `C179_progress`, `C179_open_partial`, `C179_seen_partial`, `C179_size_violated` | Proved for any segmentation and interleaving: messages of complete frames are seen once and in order, and all of them once polled often enough, for frames of at most 65535 bytes that do not hit a debug assertion. Violated: the header of a frame of more than 65535 bytes makes the task panic. |
| C180 An I2CP client gets its messages in order | proved | I2cpSocket | `C180_order`, `C180_kept`, `C180_flushed` | Any interleaving and any behaviour of the stream. |
| C181 An I2CP client can read what the router sends | partial | I2cpMessage | `C181_set_date`, `C181_bandwidth`, `C181_payload`, `C181_status`, `C181_all_partial`, `C181_host_reply_violated`, `C181_deaf_violated`, `C181_lease_request_violated`, `C181_no_lease_violated` | Proved for SetDate, BandwidthLimits, MessagePayload and SessionStatus. Violated: HostReply announces one byte less than it has and RequestVariableLeaseSet two, so the client loses the framing; after a failed lookup it waits for more than 16 MB; a request without leases panics. |
| C182 The router understands an I2CP message as the client meant it | partial | Details, I2cpMessage | `C182_get_date`, `C182_set_date`, `C182_lookup_hash`, `C182_lookup_name`, `C182_message`, `C182_signed`, `C182_lease_set`, `C182_lease_set_signed`, `C182_keys_violated`, `C182_trailing_violated`, `C182_total_partial` | Field values proved for HostLookup, SendMessageExpires, CreateLeaseSet2; signatures proved for CreateSession and CreateLeaseSet2. Violated: private keys of a lease set are not compared with it and may be missing; trailing bytes hit a debug assertion. The date of CreateSession is not checked (no clock in the parser). |
| C183 An I2CP client's messages to a destination are sent in order, once, and not lost | partial | I2cpSession | `C183_order`, `C183_now`, `C183_later_partial`, `C183_lost_violated`, `C183_lookup_violated`, `C183_silent_violated` | violated: a message for a destination that is being looked up for another reason is lost, and messages are dropped without notice if the lease set is not found |
| C184 An I2CP host lookup is answered exactly once | partial | I2cpSession | `C184_once`, `C184_now`, `C184_later_partial`, `C184_book`, `C184_forgotten_violated`, `C184_no_book_violated` | violated: a lookup of a hash that is already being looked for is never answered; without an address book lookups of hashes fail |
| C185 An I2CP client gets the messages for its destination in order with increasing ids | proved | I2cpSession | `C185_delivered` |  |
| C186 An I2CP session does what the client says about its lease set, its keys and its end | partial | I2cpSession | `C186_answers`, `C186_published`, `C186_key_violated`, `C186_destroy_violated`, `C186_closed`, `C186_default_violated`, `C186_no_key_violated` | violated: DestroySession does not end the session, keys of later lease sets are ignored, lease sets are unpublished by default |
| C187 An I2CP session starts with the tunnels that its client was asked to sign for | partial | I2cpServer | `C187_request`, `C187_once`, `C187_started`, `C187_soon_partial`, `C187_more_violated`, `C187_none_violated`, `C187_lookup_violated`, `C187_destroy_violated`, `C187_other_violated` | violated: more tunnels than wanted, no inbound tunnels, lookups, DestroySession and foreign lease sets |
| C188 I2CP sessions have ids of their own and do not disturb each other | partial | I2cpServer | `C188_ids_partial`, `C188_repeat_violated`, `C188_none_violated`, `C188_isolated_partial`, `C188_active`, `C188_early_violated`, `C188_keys_violated`, `C188_dead_violated`, `C188_running_partial` | violated: ids repeat and a client can end the server |
| C189 Shuffling neither loses nor repeats anything and can give every order | proved | Util | `C189_rearranged`, `C189_every` |  |
| C190 Addresses that are not reachable from the internet are not taken for public ones | partial | Util | `C190_blocks`, `C190_multicast_violated`, `C190_this_network_violated` | violated: multicast addresses and nearly all of 0.0.0.0/8 count as public; the blocks the code knows are proved |
| C191 Reading and writing a whole buffer handles any way the socket splits it | partial | Util | `C191_read`, `C191_given_up_violated`, `C191_timeout`, `C191_write`, `C191_write_done`, `C191_read_done` | violated: bytes already read are lost with a read that is given up; the rest is proved |
| C192 The duplicate filter recognises every repeat within its period and little else | partial | Bloom | `C192_repeat`, `C192_forgets`, `C192_capacity_violated`, `C192_new_partial` | violated: between two agings at most 2048 new messages are let through; repeats and forgetting are proved |
| C193 Every holder of a shutdown handle is told once, and its answer counts | partial | Shutdown | `C193_ready`, `C193_notice`, `C193_early_violated`, `C193_late_violated`, `C193_again` | violated: an answer before the notice was seen is not heard, and a handle given out after the request is not told; the rest is proved |
| C194 The numbers in a router status are those of the moment | proved | Events | `C194_numbers`, `C194_each`, `C194_now` |  |
| C195 Every destination that starts is reported once | partial | Events | `C195_once`, `C195_all_partial`, `C195_unread_violated`, `C195_burst_violated` | violated: reports are lost when the reader is 64 events behind or 64 destinations start at once; proved otherwise |
| C196 The router ends when it is asked to and says so | partial | Events, Router | `C196_at_most_once`, `C196_end`, `C196_polled`, `C196_shutting_down`, `C196_shut_down_violated` | violated: the event that the router has shut down is never sent; when it ends is proved |
| C197 A graceful shutdown lets the transit tunnels run out | proved | TransitEnd | `C197_done_iff`, `C197_until_then` |  |
| C198 A host name has the address of the first list line about it | proved | AddressBook | `C198_lookup`, `C198_line` | text as characters; downloads given |
| C199 Known host names survive restarts and crashes | partial | AddressBook | `C199_forgotten_violated`, `C199_crash_violated`, `C199_torn_violated`, `C199_kept_partial` | violated three ways: restart forgets, crash empties, crash truncates an address; _partial: an intact file keeps its names over a start |
| C200 The HTTP proxy sends exactly the sanitised request | proved | HttpProxy | `C200_sent` | the output of the httparse and url crates is given |
| C201 Destinations cannot tell browsers apart by their headers | partial | HttpProxy | `C201_same_partial`, `C201_other_violated`, `C201_referer_violated`, `C201_agent_violated` | noninterference for the headers the proxy knows; violated for unknown headers, foreign Referer, absent User-Agent |
| C202 The HTTP proxy serves exactly GET and POST requests for .i2p hosts | partial | HttpProxy | `C202_served`, `C202_port_violated` | exact characterisation proved; the wish that every .i2p host is served is violated for hosts with a port |
| C203 The HTTP proxy sends the whole body of a request | partial | HttpProxy | `C203_beginning_partial`, `C203_whole_partial`, `C203_long_violated`, `C203_lost_violated`, `C203_head_violated` | only a beginning of the body is sent; three violations |
| C204 Reseed files are read exactly as the SU3 format says | proved | Su3 | `C204_read`, `C204_only` | both directions |
| C205 Only routers from properly signed reseed files are used | partial | Su3 | `C205_unsigned_violated`, `C205_genuine_violated`, `C205_kind_partial`, `C205_files_partial` | violated twice: signature never decides; genuine signatures fail the check; only the kind is enforced |
| C206 No reseed file can crash the router | partial | Su3 | `C206_entry_violated`, `C206_version_violated`, `C206_safe_partial` | violated by unreadable archive entries and, with debug assertions, short versions; safe otherwise |
| C207 Reseeding ends after at most five different servers | partial | Su3 | `C207_asked_partial`, `C207_stuck_violated`, `C207_empty_violated`, `C207_ends_partial` | distinct, at most five, first usable; violated: fewer than five servers never end, none panics |
| C208 A router keeps its identity over restarts | proved | Boot | `C208_identity` | Model Boot: data directory as files and directories, changed one system call or byte at a time; a start is a list of changes and may be stopped after any number. Contents of the configuration are a parameter. |
| C209 A damaged key file is not silently replaced | partial | Boot | `C209_short_violated`, `C209_kept_partial` | Violated by a short file (C209_short_violated); C209_kept_partial. |
| C210 After a start every directory that router infos are stored in exists | partial | Boot | `C210_stopped_violated`, `C210_made_partial`, `C210_profiles_partial`, `C210_alphabet_partial` | Violated (C210_stopped_violated); C210_made_partial, C210_profiles_partial: a start that is not stopped makes all of them. |
| C211 The configuration file of the user is replaced only when asked | partial | Boot | `C211_kept_partial`, `C211_unreadable_violated` | Violated by text that is not UTF-8 (C211_unreadable_violated); C211_kept_partial. |
| C212 A killed first start does not change the configuration of the next | partial | Boot | `C212_torn_violated`, `C212_before_partial` | Violated (C212_torn_violated); C212_before_partial. |
| C213 The arguments of the command line are respected | partial | Boot | `C213_first_violated`, `C213_later_partial` | Violated on the first start (C213_first_violated); C213_later_partial. |
| C214 Arguments take precedence over the configuration file | partial | Config | `C214_asked_partial`, `C214_http_violated`, `C214_kept` | C214_asked_partial, C214_kept; violated for the HTTP proxy (C214_http_violated). |
| C215 Tunnels of the configuration do not collide | proved | Config | `C215_distinct` | Hash sets as duplicate-free lists. |
| C216 Routers are downloaded exactly when needed | proved | Config | `C216_reseed` | Model Config: merge and the decision in setup_router. |
| C217 A profile is loaded for the router it was stored for | partial | Storage | `C217_name_partial`, `C217_panic_violated`, `C217_other_violated` | Violated for some data directories (C217_panic_violated, C217_other_violated); C217_name_partial. |
| C218 Router infos and profiles survive a restart | proved | Storage | `C218_loaded`, `C218_paths` | Model Storage: files grow one byte at a time; text form of profiles and decompression are parameters; paths of the data directory as in C217_name_partial. |
| C219 Being killed while storing loses nothing that was stored | partial | Storage | `C219_info_violated`, `C219_profile_violated`, `C219_torn_partial` | Violated (C219_info_violated, C219_profile_violated); C219_torn_partial. |
| C220 Port forwarding maps the ports of the transports | partial | PortMapper | `C220_udp_violated`, `C220_upnp_partial`, `C220_removed_partial` | Violated by NAT-PMP (C220_udp_violated); C220_upnp_partial, C220_removed_partial. |
| C221 UPnP takes over if NAT-PMP does not work | partial | PortMapper | `C221_gateway_violated`, `C221_mapping_violated`, `C221_timeout_partial` | Violated (C221_gateway_violated, C221_mapping_violated); C221_timeout_partial. |
| C222 The router is told every change of its external address | partial | Cli, PortMapper | `C222_told_partial`, `C222_natpmp_partial`, `C222_upnp_partial`, `C222_error_violated` | C222_natpmp_partial, C222_upnp_partial without early errors; C222_error_violated. |
| C223 The gateway is asked for the address every five minutes | partial | PortMapper | `C223_natpmp_partial`, `C223_upnp_violated` | Violated by UPnP (C223_upnp_violated), assuming that a tokio timer that has fired stays ready; C223_natpmp_partial. |
| C224 A server tunnel keeps its address | partial | Tunnels | `C224_same_partial`, `C224_torn_violated`, `C224_unwritable_violated` | violated by a kill while the key is stored, and if it cannot be stored; proved for a key that was stored |
| C225 A client tunnel serves every connection | partial | Tunnels | `C225_joined_partial`, `C225_second_violated`, `C225_waits_partial` | violated for connections made while another is served; proved that connections get their own tunnel's destination |
| C226 A SAM client and the router agree on a version | partial | SamHello | `C226_version_partial`, `C226_minimum_violated` | violated: the minimum version of the client is ignored; proved that the version is told and at most the maximum |
| C227 A SAM client that sends commands keeps its connection | partial | SamHello | `C227_kept_partial`, `C227_new_partial`, `C227_greeted_partial`, `C227_busy_violated` | violated for clients that go on asking; proved that there are ten seconds |
| C228 Keys that a SAM client is given can be used | proved | SamHello | `C228_usable` |  |
| C229 A reachable router is connected to | partial | Net | `C229_address_partial`, `C229_dialled_partial`, `C229_ssu2_violated`, `C229_crash_violated`, `C229_safe_partial` | violated: only the first transport is used; SSU2 dial panics without an SSU2 address; otherwise proved |
| C230 Private addresses are used only if allowed | partial | Net | `C230_dial_partial`, `C230_accept_partial`, `C230_ssu2_violated`, `C230_ipv6_violated` | violated for SSU2 dials and for IPv6; proved for NTCP2 over IPv4 |
| C231 The published address is the one the router listens on | partial | Net | `C231_published_partial`, `C231_cost`, `C231_hidden`, `C231_port_violated` | violated for ports chosen by the operating system; proved for configured ports and for unpublished transports |
| C232 An error of the network does not stop the router | partial | Net | `C232_accept_violated`, `C232_send_violated`, `C232_sent_partial`, `C232_keeps_partial` | violated by the first accept or send error; proved that nothing else ends the transport |
| C233 Each NTCP2 connection is reported once | proved | Net | `C233_once`, `C233_all` | model of the NTCP2 transport; the handshakes' own behaviour is in C85-C89 and not composed here |
| C234 The NTCP2 transport does not sleep on work | partial | Net | `C234_second_violated`, `C234_refused_violated`, `C234_rest_partial` | two lost wake-ups proved; all other cases hold |
| C235 A message sent through an outbound tunnel is delivered | partial | HopLoop | `C235_delivered_partial` | messages of up to 64 pieces (C12 shows that longer ones are never delivered); any build; crypto is lawful AES and SHA-256 with 32 bytes |
| C236 A message sent to an inbound tunnel reaches its owner | partial | HopLoop | `C236_inbound_partial`, `C236_gateway_partial` | messages of up to 64 pieces |
| C237 A transit tunnel goes on whatever it is sent | partial | HopTask | `C237_goes_on_partial`, `C237_readable_partial`, `C237_debug_violated` | violated in debug builds |
| C238 Hops send only where they were told to | proved | HopTask | `C238_participant`, `C238_gateway`, `C238_endpoint` |  |
| C239 Transit bandwidth is counted | partial | HopTask | `C239_accounted_partial`, `C239_lost_violated` | violated at the end of a tunnel |
| C240 A zero-hop tunnel brings the reply | partial | HopTask | `C240_first_partial`, `C240_once_partial`, `C240_junk_violated` | violated: the first message uses the tunnel up, whatever it is |
| C241 DSA signatures are checked exactly | proved | Dsa | `C241_dsa`, `C241_range` | SHA-1 is a parameter; the group order is proved prime by a Pratt certificate; that the modulus is prime is not needed |
| C242 Signing keys and signatures as bytes | partial | Dsa | `C242_key_bytes`, `C242_length_partial`, `C242_extra_violated` | violated for DSA: bytes after the signature are ignored |
| C243 No nonce is used twice under a key | proved | Dsa | `C243_nonces`, `C243_damaged`, `C243_in_order` | the AEAD is a parameter; the nonce is per cipher object |
| C244 Everything that is written to a stream arrives | proved | StreamLive | `C244_everything_arrives`, `C244_done` | timers, the channel and the network are the schedule; fairness is the structure Fair; until the close of the stream (C07) |
| C245 The HTTP proxy answers every request | partial | HttpAnswer | `C245_answered_partial`, `C245_silent_violated`, `C245_broken_violated` | a request that takes over ten seconds, a head that does not fit 8192 bytes and a connection that breaks before the request is written are not answered (C245_silent_violated, C245_broken_violated) |
| C246 Error pages show what a request said as text | partial | HttpAnswer | `C246_text_partial`, `C246_markup_violated` | the host is put into the page as it is: markup in it becomes markup of the page (C246_markup_violated); proved for hosts without < |
| C247 Accepted connections come with the address of the peer | partial | Runtime | `C247_peer_partial`, `C247_listener_partial`, `C247_async_violated`, `C247_refused_violated`, `C247_private_violated` | proved for tokio; async-std reports the local address (C247_async_violated), so a router behind a private address takes no connection (C247_refused_violated) and one with a public address takes private peers (C247_private_violated) |
| C248 Datagrams that are reported as sent are sent | partial | Runtime | `C248_tokio_partial`, `C248_order_partial`, `C248_room_partial`, `C248_full_violated`, `C248_dead_violated`, `C248_long_violated` | proved for tokio; async-std reports datagrams that it drops when the channel is full (C248_full_violated), ends at the first error (C248_dead_violated), and panics on long datagrams with debug assertions (C248_long_violated) |
| C249 A set of tasks gives each result once | partial | Runtime | `C249_results_partial`, `C249_open_partial`, `C249_woken_partial`, `C249_ended_violated` | a task that panicked makes the tokio set say that it ended (C249_ended_violated); the rest is proved |
| C250 A message crosses two tunnels unchanged | partial | EndToEnd | `C250_crosses_partial` | Proved for messages of up to 64 pieces (C12 shows what happens beyond) that are parsed whole and whose expiry fits the headers. The tunnels may have any number of hops; participants are on the way of each piece as in C235 and C236. |
| C251 What one destination sends is what the other reads | partial | EndToEnd, JourneyLong | `C251_first_partial`, `C251_session_partial`, `C251_ratchets_partial` | Proved under the conditions of C119 (first messages), C115 (sessions, until a ratchet is due, in any order) and C271 (conversations over any number of ratchets, in order) and for what fits into 64 pieces. The violations of C115 to C119 and C271 apply. |
| C252 A datagram of a client arrives at the other client as it was sent | partial | EndToEnd, JourneyLong | `C252_first_partial`, `C252_session_partial`, `C252_ratchets_partial` | Proved under the conditions of C251 and C177 (ports 0, room in the channel to the client), for one datagram and for any number of datagrams over any number of ratchets. The violations of C177 apply. |
| C253 SSU2 packets reach their session in order | partial | Ssu2Socket | `C253_in_order`, `C253_none_lost_partial`, `C253_delivered_partial`, `C253_full_violated` | order proved for all histories; a full channel loses packets |
| C254 The end of an SSU2 connection leaves the router running | partial | Ssu2Socket | `C254_end_panics_violated`, `C254_peer_ends_router_violated`, `C254_manager_never_told_violated`, `C254_only_ends_panic_partial` | violated: any peer can end the router with a termination packet; the manager is never told |
| C255 The SSU2 socket keeps nothing of connections that are over | partial | Ssu2Socket | `C255_ids_kept_violated`, `C255_token_requests_violated`, `C255_id_dead_violated`, `C255_one_entry_each_partial` | violated: entries are never removed |
| C256 Subsystems hear of every SSU2 connection once | proved | Ssu2Socket | `C256_manager`, `C256_told`, `C256_reported_down` | Inbound and outbound sessions from the socket's first datagram on; a panicking task only in checked builds |
| C257 A vanished SSU2 peer is noticed | partial | Ssu2Socket | `C257_never_times_out_violated` | violated: an active session has no timeout; the theorem is the refutation |
| C258 Messages cross an NTCP2 connection in order | proved | Ntcp2Link | `C258_in_order` | Messages that fit an NTCP2 frame; TCP loses nothing |
| C259 Every message handed to an NTCP2 connection is delivered | proved | Ntcp2Link | `C259_delivered` | Fair schedules; messages that fit an NTCP2 frame; TCP loses nothing |
| C260 Two routers agree on being connected | proved | Meet | `C260_agree` | Two routers, NTCP2 |
| C261 Routers that dial each other end up connected | partial | Meet | `C261_one_asks_partial`, `C261_both_ask_violated` | violated when both routers dial: each drops the other's connection, whatever the order |
| C262 The NTCP2 transport is woken for everything that waits for it | partial | Ntcp2Transport | `C262_woken_partial`, `C262_failed_handshake_violated`, `C262_backlog_violated`, `C262_backlog_partial` | violated after a failed inbound handshake and after the first connection from the listener; the theorem covers the other polls |
| C263 The transport manager hears once of every NTCP2 handshake and session | proved | Ntcp2Transport | `C263_account` | Task panics are excluded (C249) |
| C264 Requests go to floodfills | partial | NetdbFloodfill | `C264_table_partial`, `C264_asked_partial`, `C264_used_partial`, `C264_named_violated` | proved for requests of the user (lookups, searches for floodfills, publishing) and for the table; refuted for routers that are named in replies to a search, which are asked without being floodfills |
| C265 Every garlic tag that is waited for is watched for | proved | SessionTags | `C265_watched` | for runs in which no call aborted the program: a panic inside a session leaves the tag removed; a tag that two sessions generated is excluded |
| C266 Ctrl-C and the button end the program | partial | Cli | `C266_unasked_partial`, `C266_twice_partial`, `C266_gateway_violated`, `C266_graceful_partial`, `C266_unasked_goes_on_partial`, `C266_buttons_partial` | proved for fair schedules when the port mapper answers; violated: while it does not answer, the loop waits inside the branch that took the request, polls nothing and hears nothing |
| C267 The window shows what is true | partial | Cli | `C267_true`, `C267_fresh`, `C267_all_partial`, `C267_status`, `C267_since`, `C267_countdown`, `C267_uptime`, `C267_unit`, `C267_rate_violated`, `C267_rate_ends_partial` | proved but for a full channel, in which destinations are lost (C195); violated for the success rate: 29 of 100 is shown as 28 % |
| C268 The log option says what is logged | partial | Start | `C268_groups_partial`, `C268_trailing_violated`, `C268_unknown_violated`, `C268_presets` | proved for options made of groups; violated: targets after the last level are ignored, and an unknown level makes the program panic |
| C269 What is configured is started | partial | Start | `C269_routers`, `C269_sam_partial`, `C269_no_sam_violated`, `C269_address_book_violated`, `C269_alone_violated` | proved for the routers, and for the services when the SAM server listens; violated: without it, or without the proxy for the address book, what is configured silently does not run |
| C270 What a destination sends leaves through one of its own tunnels | partial | PoolSend | `C270_first_hop`, `C270_order`, `C270_sent_partial`, `C270_delivered_partial`, `C270_no_tunnel_violated`, `C270_bound_violated`, `C270_expired_violated` | delivery for messages of up to 64 pieces; violated: accepted messages are dropped without an outbound tunnel, bound ones when their tunnel is gone; with debug assertions an expired tunnel ends the pool |
| C271 A session goes on over any number of ratchets | partial | SessionRatchet | `C271_ratchets_partial`, `C271_strangers_partial`, `C271_unanswered_violated` | Proved for messages that arrive in order, with no tag collision, up to 65535 tag sets each way, if nobody speaks more often in a row than tags are generated ahead; refuted without that bound; missing: losses and overtaking across a ratchet, and the passage of time (old tags expire after three minutes, C127) |
| C272 NTCP2 connects to every conforming implementation | partial | Ntcp2Interop | `C272_accepts_partial`, `C272_dials_partial`, `C272_unpadded_request_violated`, `C272_unpadded_answer_violated` | proved for every conforming peer that pads its messages; violated for peers that send no padding, because the code mixes empty padding into the handshake hash |
| C273 Keys are derived as the specifications say | proved | KeyDerivation | `C273_tag_sets`, `C273_entries`, `C273_new_session`, `C273_reply`, `C273_tunnels`, `C273_ssu2`, `C273_messages` |  |
| C274 Messages have the layout of the specifications | partial | Wire | `C274_i2np`, `C274_answers`, `C274_lookups_partial`, `C274_encrypted_lookups_violated`, `C274_stores_partial`, `C274_build_records`, `C274_fragments`, `C274_tunnel_messages`, `C274_garlic`, `C274_streaming`, `C274_payloads` | violated for lookups that ask for an encrypted reply |
| C275 Lease sets and router infos have the layout of the specification | partial | WireNetDb, WireOffline | `C275_lease_set_made`, `C275_lease_set_read_partial`, `C275_router_info_read_partial`, `C275_router_info_made`, `C275_other_transports_violated`, `C275_other_keys_violated`, `C275_first_lease`, `C275_offline_read_partial`, `C275_offline_length_violated` | violated for router infos with an address of another transport, for lease sets without an X25519 key and for lease sets with a transient key of a destination with a DSA key |
| C276 SSU2 connects to every conforming implementation | partial | Details, Ssu2Interop | `C276_answer_blocks`, `C276_dialling`, `C276_being_dialled_partial`, `C276_unknown_blocks_violated`, `C276_compressed_info_violated` | proved in full for the dialling side and for payloads of known blocks on the other; violated for blocks of unknown types and for compressed router infos; a SessionConfirmed in several packets is not modelled |
| C277 Tunnels are built through routers of any implementation | proved | TunnelInterop | `C277_creator`, `C277_hop` | short build messages; the routers' answers and the ways they come back are arbitrary |
| C278 What the network database says arrives as it was meant | partial | Details, NetdbWire | `C278_direct_lookup`, `C278_published_partial`, `C278_token_violated`, `C278_lease_set_lookup`, `C278_router_lookup`, `C278_sent_partial`, `C278_status` | violated when the reply token drawn is zero |
| C279 A published lease set is found | partial | Details, NetdbWire | `C279_current`, `C279_found_partial` | proved until the first expiration in the lease set and while nobody stores another under the key (C141 shows both limits are real) |
| C280 Destinations talk with those of other implementations | partial | Details, GarlicInterop | `C280_remembered`, `C280_request_violated`, `C280_called_partial`, `C280_calls_partial` | proved before the first ratchet, for the first messages that are watched for (4,096 as shipped) and payloads without acknowledgements; violated for requests without a database store |
| C281 Tunnels carry messages with routers of any implementation | proved | TunnelDataInterop | `C281_outbound_owner`, `C281_inbound_owner`, `C281_endpoint`, `C281_gateway`, `C281_participant`, `C281_put_together` | messages of at most 64 pieces (C12 says what happens beyond); block cipher and hash are parameters with their laws |
| C282 What a client wrote before it closed is delivered | partial | Details, StreamTask | `C282_read`, `C282_kept_partial`, `C282_sent_again`, `C282_peer_closes_violated` | violated when the peer closes: unacknowledged and unsent data of the client is thrown away; otherwise every packet is kept and sent again until it is acknowledged |
| C283 Each direction of a stream closes on its own | partial | StreamTask | `C283_client_done_violated`, `C283_peer_done_violated`, `C283_delivered_partial`, `C283_acknowledges`, `C283_complete` | violated: after either side has closed its direction the other direction is cut off as well; until then delivery is in order and without gaps |
| C284 A stream whose peer has vanished ends | partial | StreamTask | `C284_vanished_violated`, `C284_ends_partial` | violated: retransmission has no limit, nothing but an event from outside ends the task |
| C285 A client that accepts a stream is told whom it is from | partial | StreamFirst | `C285_given_first`, `C285_told_apart_partial`, `C285_destination_connects`, `C285_hash_instead_violated` | violated: the line carries the hash in place of the destination and cannot be used to connect; the order of line, early data and later data is proved |
| C286 Streams open with peers of any implementation | partial | StreamPeer | `C286_peer_opens_partial`, `C286_peer_answers`, `C286_own_packets`, `C286_older_peers_violated` | SYNs without the hash of the addressee (older peers) are ignored: C286_older_peers_violated; with it every peer is accepted, every answer is, and the own packets are those of the specification |
| C287 Only the peer ends a stream | partial | StreamPeer | `C287_reset_violated`, `C287_close_violated`, `C287_number_partial` | unsigned RESET and CLOSE end a stream: C287_reset_violated, C287_close_violated; the number of the stream is the only protection: C287_number_partial |
| C288 A stream keeps to what its peer asks for | partial | StreamPeer | `C288_ignored_violated`, `C288_too_large_violated`, `C288_sizes_partial` | the size and the delay the peer asks for are ignored: C288_ignored_violated, C288_too_large_violated; the bound 1812 and the same data under a number hold in every history |
| C289 Tests of tunnels tell whether they work, and tunnels that fail are no longer used | partial | Details, TunnelTest | `C289_interval`, `C289_content`, `C289_succeeds_partial`, `C289_forged_violated`, `C289_still_used_violated` | Working tunnels pass their test; but anyone who knows its number can end it well, and failing tunnels are used as before. |
| C290 Datagrams are exchanged with clients of any implementation | partial | DatagramPeer | `C290_received_partial`, `C290_raw_received`, `C290_types_violated`, `C290_newer_violated`, `C290_sent` | Datagrams from destinations for DSA, P-384, P-521 or RedDSA and those of newer formats are dropped; the rest is read and written as specified. |
| C291 A stream opens across the network | partial | JourneyLong, StreamJourney | `C291_ratchets_partial`, `C291_opens_partial`, `C291_packets_partial` | C291_opens_partial, C291_packets_partial and C291_ratchets_partial: the opening of a stream and the packets after it, through any tunnels, also over ratchets; messages of up to 64 pieces (C12), no two session tags equal, the one that is called does not itself open a session at the same time (C119), nothing of the opening is lost (C67: a lost SYN-ACK is not repeated), over ratchets under the conditions of C271. |
| C292 Two streams and the network between them | partial | StreamTwo | `C292_reads_partial`, `C292_close_violated` | the beginning is proved for both directions; violated: a CLOSE has a number but no data, the receiver never counts it and so never acknowledges it; only the CLOSE that the peer itself sends ends the stream |
| C293 A SAM session is established when the network is ready and has tunnels for it | partial | SamStart | `C293_ready`, `C293_given_up`, `C293_established`, `C293_unanswered_violated`, `C293_manager_ends_violated` | Proved: when a session is established or given up, and that it is established if the rest of the router works. Violated: while the channel of the network database is closed or stays full the request is retried for ever and never answered; a tunnel manager that ends makes the task panic. |
| C294 The packets of a stream carry its ports | partial | StreamPorts | `C294_outbound`, `C294_inbound_partial`, `C294_inbound_violated`, `C294_waiting_violated`, `C294_waiting_partial`, `C294_written`, `C294_not_a_number` | Proved for streams that the client opens, for streams that a remote opens from port 0 to port 0, and for other ports as long as the stream waits for a listener. Violated for other ports after that: a stream that is accepted sends all its packets from and to port 0, and one that waited for a listener changes its ports. |
| C295 A message of an I2CP client is not sent after its time | partial | I2cpExpires | `C295_at_once_partial`, `C295_expired_violated`, `C295_waits_violated` | violated: the expiration is never looked at, neither when the message comes nor when its lease set is found |
| C296 The tunnels of a client are as many and as long as it asks for | partial | PoolConfig | `C296_asked`, `C296_length`, `C296_none_violated`, `C296_sam_violated`, `C296_sam_partial` | violated: zero or more than 8 hops give no tunnel; options of SAM clients are ignored. That a pool keeps to the number of tunnels is C129 |
| C297 A tunnel pool keeps listeners only for messages that are waited for | partial | PoolWaits | `C297_kept_partial`, `C297_answered`, `C297_tests_violated`, `C297_dials_violated`, `C297_inbound_partial`, `C297_inbound_violated` | Holds in all histories without failed dials and late tests (C297_kept_partial). C297_tests_violated and C297_dials_violated: any number of late tests, or of builds whose first router cannot be dialled, leaves as many listeners for which nobody waits. C297_answered: the converse holds always, the listener of a task that waits is there and its answer is passed to it. The same for inbound tunnels, whose listeners are in the routing table: C297_inbound_partial and C297_inbound_violated. |
| C298 A SAM client is answered before it has a session as it is afterwards | partial | SamEarly | `C298_answers`, `C298_lookup_violated` | C298_answers: one line per command, in order and as specified for unknown names, for all histories. C298_lookup_violated: names that a session finds at once are not found without a session. |
| C299 An SSU2 session can send every message it is given | partial | Ssu2Send | `C299_sent`, `C299_received`, `C299_tunnels`, `C299_gateway`, `C299_size_violated`, `C299_cut_violated` | C299_sent, C299_received, C299_tunnels, C299_gateway: sizes 1 to 65526 and all that is forwarded. C299_size_violated and C299_cut_violated: other sizes. |
| C300 A stream ends only for a reason | partial | StreamEnds | `C300_reason`, `C300_goes_on_partial`, `C300_syn_violated`, `C300_last_number_violated` | C300_reason: every end has its reason in the history. C300_goes_on_partial: without one, a stream goes on. C300_syn_violated, C300_last_number_violated: the two panics. |
| C301 Streams of one session do not disturb each other | partial | StreamSession | `C301_alone_partial`, `C301_ends_partial`, `C301_why_partial`, `C301_panic_violated`, `C301_two_packets_violated` | C301_alone_partial: each stream is as if alone while the session runs. C301_ends_partial, C301_why_partial: only a panic ends it, and what must have come before. C301_panic_violated, C301_two_packets_violated: one stream can. |

## Findings: where the code violates a property

* `C03_close_violated`: C03 is violated by the packet that closes the stream: after packets 1 and 3 it acknowledges packet 2.
* `C03_nack_limit_violated`: C03 is violated: after packets 1 and 300 the stream acknowledges packet 290, which it never received.
* `C07_close_overtakes_data_violated`: C07 is violated: the close overtakes the only data packet; the stream ends and the data is never read.
* `C07_received_data_violated`: C07 is violated even for data that was received before the stream ended: packets 2, CLOSE, 1 arrive, the application has not read yet, the acknowledgement timer fires and both packets are lost.
* `C08_pending_stream_gap_violated`: C08 is violated: packets 1, 3, 2 arrive before accept. Packet 3 is acknowledged although 2 is missing, packet 2 is then ignored, and the application is handed packets 1 and 3.
* `C09_failed_accept_blocks_forward_violated`: An accept client that disconnects before the answer reaches it makes the listener refuse every forward request until a further accept client has been served.
* `C09_failed_forward_kills_listener_violated`: A forward client that disconnects before the answer reaches it leaves the listener dead.
* `C09_late_accept_kills_listener_violated`: The full claim fails: an accept client is still being answered while a second one is admitted silently and used up, then a forward client is admitted. Both the first accept client and the forward client are told that their request succeeded, and from then on the listener is dead (in debug builds it panics).
* `C11_signature_lost_without_destination_violated`: C11 is violated for signed packets without the sender's destination: whatever signature was put on the wire, the parser reports an empty one.
* `C12_oversized_message_never_delivered_violated`: C12 fails beyond the size bound, for *every* such message: the sender emits all of its tunnel data messages (the six bits of the fragment number wrap silently), they all reach the endpoint, in order, and nothing is ever handed over.
* `C14_incomplete_message_never_dropped_violated`: Incomplete messages are kept for ever: whatever arrives for other messages, the entry of a message with a missing fragment stays; there is no expiry.
* `C14_missing_fragment_accepted_violated`: C14 fails for inconsistent fragment numbers: for *every* complete serialized message `bytes`, a sender that sends it as "first fragment" with a stray fragment number 5 and a "last fragment" number 2 makes the endpoint hand over a message although fragment 1 never arrived.
* `C18_short_header_size_wraps_violated`: C18 is violated: for every payload of more than 65526 bytes the short form carries a size field that wraps, and no parse of the emitted bytes (followed by anything) returns that payload.
* `C18_standard_header_size_wraps_violated`: C18, standard header: more than 65535 payload bytes wrap as well.
* `C25_announced_size_overrun_violated`: C25 for foreign input: the announced size is not a bound. For every mapping that fits, an announced size of one byte still makes the parser take the whole mapping.
* `C28_parsed_lease_set_expiry_changes_violated`: C28 is violated for lease sets taken from the network: there `expires` is the absolute time, and serializing writes its low 16 bits as if they were the offset. Whatever the (unexpired) lease set, re-parsing its serialization gives back the same expiration only if the publication time happens to be a multiple of 65536 seconds.
* `C32_unparseable_frame_desynchronises_violated`: C32 fails when an authentic frame does not parse (say it has an unknown block type): for *every* such frame `ct`, the reader does not go back to reading a length. Read at once, it takes the next `size` bytes of the stream, which begin with the length of the next frame, for another frame; read in two parts, it even keeps the first part and completes it with the following bytes.
* `C35_long_gap_acks_unreceived_violated`: C35 violated: after a single packet with any number `n > 256` has been received, the ack block acknowledges packet `n - 256`, which was not received (run lengths are clamped to 255 without moving the next range).
* `C37_rejected_not_remembered_violated`: C37 violated: a message that arrives in one generation, again in the next (where it is rejected) and again in the third is accepted a second time, although it occurred in the generation just before.
* `C38_panic_violated`: C38 is violated as stated: a peer can send a payload on which a checked build panics.
* `C38_size_field_not_honoured_violated`: C38: in an unchecked build the size field of an ACK block with an odd number of range bytes is not honoured: its ranges are read as further blocks. The peer's 9-byte block with one range byte is taken to be an 8-byte block followed by a block.
* `C42_router_returned_twice_violated`: C42 is violated: whenever the table holds the router next to the local one, every lookup of that router's id (or of the local id) with a limit of two or more returns it twice in a row.
* `C47_pool_shutdown_violated`: C47, violated: once a pool with a tunnel through `r` has shut down, the count of `r` is too high for ever.
* `C48_insecure_violated`: C48, violated: in insecure mode, if the preferred bucket has one router, which is not failing, and the others are empty, it is both hops of a two-hop tunnel.
* `C48_same_router_violated`: C48, violated: if the only eligible router has addresses in two subnets, it is both hops of a two-hop tunnel.
* `C49_unreachable_violated`: C49, violated: a router with a recent dial failure counts as reachable, and it counts as unreachable as soon as its last failure is more than three minutes old, for ever.
* `C50_new_routers_violated`: C50, violated: a router that has not taken or refused a tunnel yet is in no bucket, and so cannot be chosen for a tunnel, as soon as any usable router that is not fast has done so, and, if it is fast, as soon as any usable router has done so.
* `C50_two_buckets_violated`: C50, violated: a router without statistics whose router info is received again is then in two buckets.
* `C51_collision_violated`: C51 violated: a remote that publishes a lease with the id of the outbound tunnel of the path makes the handle forget that tunnel; the next request for a new path panics (in builds with debug assertions).
* `C51_dead_end_violated`: C51 violated: if an owner asks for a new path and none can be made, the old path stays and nothing will replace it when its lease expires: at any time later it is handed out again, and polling the handle does not change that.
* `C51_expired_lease_violated`: C51 violated, an example: hours after the lease has expired the path is still handed out.
* `C52_full_queue_loses_messages_violated`: The property fails when a subsystem falls behind: the messages of a batch for a full queue reach neither subsystem, and the sender is not told.
* `C56_duplicate_violated`: And a copy of the answer without a key makes a debug build panic and otherwise leaves the sender without a usable set: it fails from then on, whenever it would ratchet.
* `C56_stale_keys_violated`: The two ends then make different entries, with the same id and index: shown for the sample primitives.
* `C56_stale_violated`: C56 does not hold for every schedule: when a copy of the answer to the first request (or anything with a key) arrives while the sender waits for the answer to the third, the sender takes the old key. Nothing fails and both ends get to the same set id, but the sender's set comes from the old key of the receiver and the receiver's from the new one.
* `C56_unasked_violated`: A set that has not sent a request fails as well when an answer arrives: the other end can make a debug build panic at any time.
* `C59_dsa_destination_never_accepted_violated`: C59 is violated: a destination with a DSA key can never use a transient key, because the signature length is taken from the transient key (64 bytes) instead of the destination's (40 bytes).
* `C59_expired_transient_key_accepted_violated`: C59 is violated: an expired transient key is accepted. Whatever the current time, a certificate that expired at the epoch (expiration 0) is accepted like any other.
* `C61_trailing_unsupported_block_drops_message_violated`: C61 is violated: an unsupported block (termination, options, message number or a kind defined later) at the end of a message makes the parser reject the whole message: every block before it is lost.
* `C62_variable_record_options_rejected_violated`: C62 is violated: every 464-byte record with a well-formed options mapping longer than 64 bytes is rejected, because the parser skips as many padding bytes as it has already consumed.
* `C63_any_destination_completes_connection_violated`: C63 is violated: whoever answers first completes the connection. For every destination `remote` a connection was requested to and every *other* destination `M`, a SYN signed by `M` that carries the request's id opens the stream, and the client is told it is connected to `remote`.
* `C64_late_completion_drops_new_stream_violated`: C64 is violated by late completions: `A`'s session is removed while its stream is still winding down, `B` opens a stream with the same id, and when `A`'s old stream finishes, `B`'s new stream is unregistered and reported closed.
* `C64_remove_session_drops_other_stream_violated`: C64 is violated by `remove_session`: ids of closed streams are kept under their destination. `A`'s stream with id `x` opens and closes, `B` opens a stream with the same id, and then removing `A`'s session unregisters `B`'s stream although it is still running and `B`'s session was not removed.
* `C66_shutdown_without_streams_waits_for_timer_violated`: C66 is violated when there is no stream: if none is running or pending at the time of the request, no history short of the 60 s timer makes the manager report that it has shut down.
* `C66_stream_opened_after_shutdown_violated`: C66 is violated after the forced shutdown: a manager that reported its shutdown opens new inbound streams.
* `C67_repeated_syn_unanswered_violated`: C67 is violated: while an inbound stream waits for a listener, a repeated SYN gets no answer, so a lost SYN-ACK is never sent again.
* `C68_oversized_message_misframed_violated`: C68 fails for larger messages: every message with more than 65,507 bytes of payload (and less than 131,044) is sent in a frame whose announced length is not its length: the receiver stops short of its end.
* `C71_ack_state_unbounded_violated`: C71 violated: the acknowledgement state is not bounded by what was received: after any packets, it has one entry for every packet number up to the highest received, so one packet with number `n` makes it hold `n + 1` entries.
* `C72_message_lost_violated`: C72 violated: a message whose payload has 1,190 to 1,200 bytes is sent as a single first fragment that is not marked as the last one; whatever arrives, in whatever order and however often, the receiver never hands the message on.
* `C74_retry_token_example_violated`: C74: token 1 is read as `2^56`.
* `C74_retry_token_violated`: C74 (violated): the initiator reads the bytes of the token of a `Retry` in the opposite order: it is the value that was sent only if that value is its own byte reversal.
* `C76_datagram_panics_violated`: C76 (violated): whatever the keys, anyone who knows the router's published intro key can make, for every length from 40 to 63 bytes and every connection id that is not in use, a datagram that panics the socket.
* `C77_termination_panics_violated`: C77 (violated): telling the peer that the session is closed panics, whatever the keys and the reason.
* `C78_dialled_packet_dropped_violated`: C78 (violated): a packet of a router being dialled whose bytes 8 to 15 happen to read as a data header under the router's own key is dropped, whatever session it is for: for every connection id and content there is such a packet.
* `C79_impersonation_violated`: C79 (violated): the responder does not compare the static key of the handshake with the router info. Whoever holds a router info of `victim`, with any static secret, gets a session that the responder has under the id of `victim`.
* `C80_dialled_id_violated`: C80 (violated): the session of a dialled router is reported under the id of the dialling router, whichever router was dialled.
* `C81_any_error_is_final_violated`: C81 (violated): in any state, a packet that is not the expected one, a retransmission of the previous one for instance, ends the handshake of the responder.
* `C81_bad_packet_ends_accept_violated`: see the theorem.
* `C81_bad_packet_ends_dial_violated`: C81 (violated): a session waiting for its first reply can be ended by one datagram anyone can make who knows the public intro key of the responder: after it no packet, the genuine one included, has any effect but to end the session.
* `C82_inbound_never_times_out_violated`: C82 (violated): a responder that has sent its `Retry` waits for the request for ever: its timer never fires.
* `C83_any_token_accepted_violated`: C83 (violated): a session request is answered whatever token it carries: for every token, issued or not.
* `C84_nonce_reuse_violated`: C84 (violated): builds without overflow checks go on after `2^32 - 1` packets and use the number 0 and then 1 a second time.
* `C87_static_key_not_bound_violated`: C87 (violated): anyone can open an NTCP2 session in the name of any router. A peer with *any* static key `sk'` that presents the (public) router info of `a` is accepted, and the session is reported as one with `a`.
* `C88_large_router_info_panics_violated`: C88 (violated): with overflow checks, dialling anyone panics when the router's own router info has 65,516 to 65,535 bytes.
* `C89_stale_request_answered_violated`: C89 (violated): the time in a request is not looked at, nor is it remembered that a request was seen: for every clock `rb.now` of the responder and every time `t` at which the request was made, the request is answered, as often as it is presented (the answer depends on what the responder draws and on nothing else).
* `C93_locked_out_forever_violated`: The property fails for every router: after a history that all its parts may show (and after which no connection to the router is open and no dial or query is under way), every request to connect to the router is ignored, every connection from it is rejected, and nothing is reported, whatever else happens.
* `C94_request_forgotten_violated`: The property fails if the channel to the network database is full: after any history in which nothing is under way for a router nobody has told us about, the request has no effect, and nothing is reported.
* `C97_connection_forgotten_violated`: C97, that messages to a router with an open connection are sent, fails: if a failure is reported while the connection is open (as when a second dial to a connected router fails), then until the next event about the router, no message to it is sent, the transport manager is not asked to dial it, and nothing is reported, although the connection has room for every message.
* `C98_duplicates_routed_violated`: A message with a tunnel message that was seen before is routed again: nothing filters duplicates.
* `C98_peer_message_panics_violated`: With debug assertions, any peer can stop the router: a `Data`, `TunnelBuildReply` or `VariableTunnelBuildReply` message panics, whatever it contains.
* `C99_clove_for_this_router_violated`: The property that cloves are delivered fails for cloves addressed to this router or to a tunnel of this router (as when this router is also the gateway of the tunnel): such a message is handed to the sender, who has no connection to itself and drops it (or panics, with debug assertions).
* `C100_local_feedback_violated`: The property that feedback means the message was taken over fails for messages to this router: the channel is signalled for every message, also if the message is then lost because its tunnel is unknown or has no room.
* `C103_failure_report_violated`: C103: the answers are given to the routers in the opposite order, so of two hops of which the first agreed and the second did not, the first is reported as having rejected and the second as having accepted.
* `C105_short_garlic_reply_violated`: C105: the same message, received as the reply to an outbound tunnel build, makes the creator panic.
* `C105_short_garlic_violated`: C105: a garlic message of fewer than 12 bytes which reaches the transit manager makes it panic, in every state.
* `C106_reply_options_violated`: C106: a reply record should begin with a (here empty) mapping of options. What the creator decrypts from a router's answer begins with the router's hash instead: the length of the options is whatever the hash begins with.
* `C107_expired_request_violated`: C107: a request has a time and an expiration, but a willing router accepts it however old it is: `p.now`, the time the request was made, and `now` are arbitrary.
* `C107_replayed_request_violated`: C107: a request which was accepted is accepted again, any time later, once its tunnel is gone; the same keys are used again.
* `C108_clock_violated`: The clock is set back after a refusal: asking whether the router refuses fails.
* `C115_deaf_violated`: C115 does not hold: if all the messages that were watched for are lost, every later message of the tag set is refused, whatever comes and however often: the session is deaf from then on.
* `C116_replay_violated`: C116 does not hold: a request for a session that was accepted is accepted again when it is replayed, and its contents are delivered again.
* `C117_broken_receive_violated`: Nothing that is received mends it.
* `C117_broken_violated`: From then on every attempt to send fails, or aborts if assertions are on.
* `C117_damaged_first_violated`: The same for the first message of a session to the responder.
* `C117_damaged_reply_violated`: C117 does not hold: a reply that cannot be decrypted ends the attempt to open a session: every message to the destination is refused.
* `C117_late_reply_violated`: C117 does not hold: if an attempt to open a session is given up after five minutes and another is made, a reply to the first one aborts the program if assertions are on, and otherwise breaks the second attempt too. (`t` is a tag for replies to the first one, which is still known, see `C117_left_violated`, and not a tag for replies to the second.)
* `C117_left_violated`: Expired attempts leave their tags behind.
* `C118_ack_violated`: With assertions on, so does a request for a session that asks for an acknowledgment or gives one, if there is no session with its sender.
* `C118_short_reply_violated`: With assertions on, so does a reply of less than sixty bytes.
* `C118_short_violated`: C118 does not hold: a garlic message of less than twelve bytes aborts the program in every state.
* `C119_simultaneous_violated`: C119 does not hold: if both destinations open a session at the same time, none is ever established before the attempts expire, however many messages they exchange and in whatever order they arrive: each ignores the requests of the other.
* `C120_restart_violated`: C120 does not hold: if a destination loses its sessions (it restarts) and asks for a new one, the other side goes on with the old session: the request changes neither the session nor its tags, and what is sent next carries the next tag of the old session, which the restarted destination does not know: it refuses the message.
* `C121_older_ack_violated`: C121 does not hold: an acknowledgment of an older lease set that arrives after a newer one was registered makes the newer one be forgotten: it is neither published nor sent with any message. (`x` identifies a message that carried the older one.)
* `C122_sending_violated`: C122 does not hold: a session whose peer has the lease set and that is used for sending only is dropped ten minutes after the last message was received, however much is sent meanwhile; no event tells that the session ended.
* `C123_later_reply_violated`: C123 does not hold: the requester watches for `T.nsr` replies (sixteen), so any reply after that to the same request is refused, if no two tags are equal. (`n` is the requester; the tags it watches for are those of its requests and none of them is the tag of the reply.)
* `C126_copies_violated`: C126 violated: a lease set that is stored again and again is kept as many times, until its leases expire; the expiration is up to the remote.
* `C128_short_garlic_violated`: C128, against "no message makes the router fail": a garlic message of less than twelve bytes ends the task that received it, in every state and build.
* `C129_late_violated`: C129, against the bound of `C129_bound_partial` without promptness: when a pool is polled late, so that an inbound tunnel has ended before its rebuild timer is seen, every later refilling of the pool builds at least one tunnel more than configured, for as long as the pool runs.
* `C131_lost_violated`: C131, against "the owner knows which tunnels the pool has": if the owner's queue is full when an outbound tunnel is ready, the pool has the tunnel and the owner never hears of it, however many events it reads later.
* `C132_shutdown_violated`: C132, against "a pool that is shut down leaves nothing behind": it leaves the ids of all inbound tunnels that were being built in the routing table, and all its tunnels in the selector, for good.
* `C134_crash_violated`: C134, against "a pool runs until its owner shuts it down": when the task of an inbound tunnel panics, the pool ends at its next poll, without telling its owner, and leaves the ids of all its inbound tunnels in the routing table for good. (`C128_short_garlic_violated` gives a message that makes such a task panic.)
* `C136_busy_violated`: C136 does not hold: who asks for a lease set or a router info while something else under its key is being looked up (as when the router info was named by a search reply and is being fetched) is cancelled at once.
* `C136_mismatch_violated`: C136 does not hold: whoever can send a store, with any record of the other kind in it (which may be anything that parses, of any router or destination), ends any query with its key: everyone who waits is cancelled and the query is gone.
* `C136_overwrite_violated`: C136 does not hold: a reply to one query that names a router `r` the task does not know ends a router info query for `r`. All that is needed is that the task can send lookups and that the reply's query is active and has not asked `r`.
* `C137_violated`: C137 does not hold: whatever lease set comes first in a store with the key, of any destination, expired or without leases, is given to everyone who waits as the lease set asked for.
* `C138_router_info_violated`: C138 does not hold for router infos: a floodfill named in a reply whose router info is not known is chosen from the table of floodfills all the same, and is asked again once its router info is known.
* `C139_answer_violated`: C139 does not hold for answers: a floodfill answers a lookup that asks for a direct answer by handing it to the transport whether or not there is a connection. Without one nothing is dialed and the answer does not wait: it is lost.
* `C140_any_violated`: C140 does not hold for lookups that do not say what they look for, which older routers send: they are left without an answer.
* `C141_early_violated`: C141 does not hold for lease sets with leases of different age: one that is still valid, with leases to come, is dropped by maintenance once its first lease has expired, and lookups for it are no longer answered with it.
* `C141_replaced_violated`: C141 does not hold for what a floodfill accepts: the lease set need not be of the destination whose key it is stored under, so anybody can replace the lease set of a destination, and it need not be newer than the one it replaces.
* `C142_foreign_violated`: C142 does not hold for the key: a router info is kept, and served, under whatever key it was sent with.
* `C142_forever_violated`: C142 does not hold for how long they are kept: a router info is never removed, so a floodfill answers with it, no matter how old it has become.
* `C143_age_violated`: C143 does not hold for the age of fetched router infos.
* `C143_query_violated`: C143 does not hold for answers to router info queries: whatever router info arrives under the key is given to the profile storage, be it of another network, of another router, or made up about this very router.
* `C146_interval_violated`: C146 does not hold for how often a router explores: one that knows few routers explores less often than any that knows many, against what the names and the documentation of the two intervals say.
* `C147_early_violated`: C147 does not hold for when: the timer of a lookup outlives it. If a query is answered and the same key is asked for again within 1.6 seconds, the timer of the first lookup ends the second one early: the floodfill is charged although it had, here, a tenth of a second to answer, and the next floodfill is asked. In general, any timer of the key that is due ends a query that began less than 1.6 seconds ago.
* `C148_twice_violated`: C148 does not hold for how often: the same floodfill may be sent the record twice (it is returned twice by the table, see C42).
* `C150_debug_violated`: In a debug build anyone who can send to the destination can stop it, with a data message of at most four bytes.
* `C151_overtaken_violated`: C151 does not hold for the order of messages: when a remote sends its new lease set itself, the messages that wait for one are left waiting, and messages that are handed over later leave before them.
* `C151_stuck_violated`: C151 does not hold for the end of the wait: once the query for a remote has failed, messages that wait stay where they are for as long as the remote is reachable, whatever else happens. (The remote becomes reachable by sending its lease set; nothing sends the waiting messages then, and no new query is made.)
* `C152_foreign_violated`: C152 does not hold for answers of the database either: a lease set of another destination is taken for the one that was asked for, and messages for the remote go to the other destination's tunnels.
* `C152_stale_violated`: C152 does not hold: a lease set that has expired replaces one that can be used, so that whoever replays an old lease set of a remote in a message of theirs makes the remote unreachable until a query for it has ended.
* `C153_refreshed_violated`: C153 does not hold when a lease set comes from the database: the leases of the lease set it replaces are forgotten, although they are good. A message over a route that uses one of them is then dropped, the caller is told that it was sent, and a debug build stops.
* `C155_dropped_violated`: C155 does not hold: a routing path asks for a new lease set when the leases it knows have less than thirty seconds to live. As long as the lease set that is known has not expired, the destination makes no query for it and does not answer: the request waits until the remote happens to send a lease set, or until the lease set has expired and something else asks.
* `C159_forged_violated`: But not only then: any lease set under the destination's key, whatever is in it and whoever sends it, stops the publisher during a verification, although the published lease set has not been seen.
* `C161_ends_violated`: When the network database drops a request for the closest floodfills, which it does when it knows none, the publisher ends, and with it the destination: nothing that happens later has any effect.
* `C162_steered_violated`: Anybody can choose who is sent the lease set. A search reply for the destination's key that names any router whose router info is known, be it a floodfill or not, makes that router the next one to which the lease set is published, if it is closer to the key than the others that have not been tried.
* `C164_long_violated`: A line that does not fit into the buffer closes the socket.
* `C164_stale_violated`: Bytes of the line before are taken for the rest of a line of which only a part has arrived: the client is answered for a command that it never sent.
* `C164_together_violated`: A line that arrives together with the line before it is never seen, however often the socket is polled.
* `C165_empty_violated`: An empty value in quotes is read as the two quotes.
* `C165_escaped_violated`: A value with a quote in it is read with the backslash before the quote.
* `C165_hyphen_violated`: An option whose key has a hyphen makes the router ignore it and all options that follow, without a word: the command is carried out as if they were not there.
* `C166_ending_violated`: What follows the ending is ignored: the name of another host is taken for the host.
* `C166_length_violated`: Text that is not the id of any destination is taken for one: an id has 32 bytes, but any number of bytes is accepted.
* `C167_panic_violated`: Every datagram of fewer than four bytes that anybody sends to the port stops the router, and no other datagram does.
* `C169_failed_violated`: A session that fails while it waits for tunnels is gone, but whatever happens afterwards its name and its destination are refused as duplicates.
* `C170_bookless_violated`: Without an address book, a client that wants to connect to a host name gets no answer, and debug builds of the server end with all their sessions.
* `C170_refused_violated`: If the tunnel manager does not take the request for tunnels, the client gets no answer and the name stays free.
* `C170_unanswered_violated`: A command for a session that does not exist, or still waits for tunnels, or has too much to do, is dropped: the client gets no answer.
* `C170_unterminated_violated`: The answer that a name or a destination is in use does not end with a line feed, unlike what clients wait for.
* `C171_crash_violated`: A panic in the task of one connection, session or lookup ends the server and all other sessions.
* `C171_short_violated`: A datagram of fewer than four bytes ends the server: no session is left and nothing is done any more.
* `C173_lost_violated`: A datagram that cannot be written is lost, and the one after it is written.
* `C174_twice_violated`: If two names are looked up that need the same lease set, or one name twice, there is one answer: the first lookup is never answered.
* `C176_dropped_violated`: When another stream to the same destination is opened or rejected, the sockets that wait for the lease set of the destination are dropped and get no answer.
* `C176_kind_violated`: A client that wants a stream or listens in a session for datagrams gets no answer either.
* `C176_unterminated_violated`: If the lease set is not found, the sockets that wait are told so, in order, but not with a line: what they are sent has no line feed.
* `C177_dsa_violated`: Signatures of DSA keys have 40 bytes, but 64 are skipped: the first 24 bytes of the data are lost.
* `C177_forged_violated`: The signature is not checked: anybody who can send to the session can send a datagram in the name of any destination.
* `C177_lost_violated`: Datagrams for which the channel has no room are lost, and without a port there are none.
* `C177_port_violated`: A session whose client gave a port that is not a number goes down with the first datagram.
* `C177_ports_violated`: The ports are swapped: the client is told that the datagram comes from the port it was sent to and is for the port it was sent from.
* `C179_size_violated`: Five bytes of a client end the task of its session: the header of a frame of more than 65535 bytes.
* `C181_deaf_violated`: After the answer that a lookup failed the client waits for a message of more than 16 million bytes: whatever the router sends after it is not seen.
* `C181_host_reply_violated`: The size of an answer to a lookup is one too small: its last byte is taken for the first byte of the next message.
* `C181_lease_request_violated`: The size of the request for a lease set is two too small: its last two bytes are taken for the first bytes of the next message.
* `C181_no_lease_violated`: Without a lease the request cannot be built.
* `C182_keys_violated`: The keys that come with a lease set need not have anything to do with it, and there need not be any.
* `C182_trailing_violated`: Bytes that follow some messages end the task of the session if assertions are compiled in.
* `C183_lookup_violated`: Such a state: the client looks up the hash of a destination and then sends to it. When the lease set is found, only the lookup is answered.
* `C183_lost_violated`: A message for a destination that was looked up a moment ago, or that the router itself looks for, is lost: it is not sent, it does not wait, and the client is not told.
* `C183_silent_violated`: When the lease set of a destination is not found what waits is thrown away, and the client is not told.
* `C184_forgotten_violated`: A lookup of a hash that is already being looked for, by an earlier lookup, for a message or by the router itself, is never answered: nothing of it is kept.
* `C184_no_book_violated`: Without an address book the lookup of a hash fails even if the destination is known.
* `C186_default_violated`: A lease set is kept from the network database unless the client says otherwise; I2CP publishes by default.
* `C186_destroy_violated`: A session that is destroyed, whichever id the client gives, goes on: all that happens is that the client is told that it is destroyed.
* `C186_key_violated`: The session decrypts with the first key of the first lease set for ever: the keys that come with a later lease set, which is published all the same, are ignored.
* `C186_no_key_violated`: A lease set without keys ends the task that starts the session.
* `C187_destroy_violated`: The session of a client that destroys it, or that wants another one, goes on.
* `C187_lookup_violated`: A lookup before the session has started is never answered.
* `C187_more_violated`: If more inbound tunnels are up than the options say, because the next one was built before the last one expired, then the client is not asked for a lease set, however many outbound tunnels are built.
* `C187_none_violated`: A client that asks for no inbound tunnels makes the task of its session panic when the last outbound tunnel is built.
* `C187_other_violated`: The lease set may be that of any destination: the session is started for it and not for the one that the client created the session with.
* `C188_dead_violated`: When the server has ended no client can connect any more.
* `C188_early_violated`: With debug assertions a client that sends a lease set before it was asked for one ends the server and all pending sessions, of other clients too.
* `C188_keys_violated`: A client that was asked for a lease set and sends no private key with it ends the server and all pending sessions, with and without debug assertions.
* `C188_none_violated`: One of the first 65535 sessions has the id 65535, which in I2CP means that there is no session.
* `C188_repeat_violated`: After 65536 connections (or a multiple of that) the id of a session is given to another one although it is still in use.
* `C190_multicast_violated`: Multicast addresses, no router's own, are taken for routable, all of them.
* `C190_this_network_violated`: So is all of `0.0.0.0/8` but one address.
* `C191_given_up_violated`: A read that gives up keeps what it had taken: those bytes are gone from the stream although the caller gets none of them.
* `C192_capacity_violated`: New messages are not always let through. Between two agings the filter lets through at most 2048, whatever they are and however many come; all others are dropped as repeats.
* `C193_early_violated`: A subsystem that answers before it has looked for the notice is not heard, and the router waits for it for ever, unless it looks and answers again.
* `C193_late_violated`: A handle given out after the shutdown was asked for is never told, unless the shutdown is asked for again.
* `C195_burst_violated`: So is a destination that starts when 64 others have started since the router was last polled.
* `C195_unread_violated`: When the program has 64 events to read as the timer fires, every destination that came up since the last status is never told of, however long the program goes on reading.
* `C196_shut_down_violated`: The program is never told that the router has shut down: the event that says so exists, and no history of calls makes it appear.
* `C199_crash_violated`: If the program stops before anything is written to the file, no name is known any more.
* `C199_forgotten_violated`: Names are forgotten with a restart. Whatever the book knew, once the first list of the new run has arrived it knows only what this list says, and so it stays if the other lists cannot be fetched.
* `C199_torn_violated`: If it stops in the middle of an address, the name has the part of the address that was written, unless the name appears before.
* `C201_agent_violated`: A program that does not say what it is stays apart from those that do: it is given no `User-Agent`.
* `C201_other_violated`: Every other header of the browser reaches the destination as it is, whatever it says about the browser or the user: `Sec-CH-UA`, `X-Real-IP`, `Client-IP`, `Origin`, ...
* `C201_referer_violated`: The page a user comes from is told to the destination whenever its address has the name of the destination in it anywhere, whatever site it is on.
* `C202_port_violated`: The `Host` header of a request with a port, or with the name in other letters, is refused although it names an `.i2p` site.
* `C203_head_violated`: A request whose head has more than 8192 bytes is never sent.
* `C203_long_violated`: Nothing after the first 8192 bytes is ever sent, however the reads fall.
* `C203_lost_violated`: A request with a body is sent without any of it if the first read ends with the head.
* `C205_genuine_violated`: A genuine signature is reported as a bad one: if a signer's key accepts nothing but the part of the file before the signature, then the check fails for every file whose signature is not as long as this part.
* `C205_unsigned_violated`: The routers that are taken from a file do not depend on who signed it and how: any two files with the same archive give the same routers, with and without the check, whichever keys are known and whatever the check says.
* `C206_entry_violated`: An archive with an entry that cannot be read ends the program, in every build.
* `C206_version_violated`: In a build with debug assertions so does every file with a version of less than sixteen bytes.
* `C207_empty_violated`: With an empty list of servers it panics.
* `C207_stuck_violated`: With fewer than five servers, none of which has a usable answer, reseeding never ends: it draws random numbers for ever.
* `C209_short_violated`: A key file that is shorter than its key is taken for a missing one: the start ends well with a new key, and the file is overwritten.
* `C210_stopped_violated`: If the first start is stopped while it makes the directories of the network database, the missing ones are never made: no router of theirs can ever be stored, however often the program is started.
* `C211_unreadable_violated`: A configuration file that cannot be read as text is replaced by the default configuration, without `--overwrite-config`.
* `C212_torn_violated`: If the first start is stopped while it writes `router.toml`, the next starts use the configuration that the written part happens to be, if it is one, in place of the default; the empty beginning is one, in which nothing is enabled.
* `C213_first_violated`: The first start pays no attention to the arguments.
* `C214_http_violated`: The port of the HTTP proxy alone is dropped if the file has no HTTP proxy; so is its address.
* `C217_other_violated`: If `profile-` is in the path of the data directory, and not `.toml`, the name is never that of a router.
* `C217_panic_violated`: If `.toml` is in the path of the data directory, and not `profile-`, reading any profile ends the program.
* `C219_info_violated`: If the program is killed right after it opened the file of a router info to replace it, the old router info is lost: the file is empty.
* `C219_profile_violated`: If it is killed right after it opened the file of a profile, the next start has an empty profile for the router: no successes and no failures.
* `C220_udp_violated`: NAT-PMP never maps a UDP port, whatever the configuration and whatever happens: SSU2 cannot be reached.
* `C221_gateway_violated`: If the first thing NAT-PMP does, finding the gateway, ends with an error within ten seconds, the port mapper panics and UPnP is never tried.
* `C221_mapping_violated`: So does an error in answer to the mapping of the NTCP2 port.
* `C222_error_violated`: Once an answer is an early error, nothing is told to the router any more, though the gateway answers again.
* `C223_upnp_violated`: After its first five minutes UPnP asks again as soon as it has an answer: it asks `n` times within the time of `n - 1` answers, without any pause.
* `C224_torn_violated`: If the first start is killed while it writes the file, the part that was written is the destination of the tunnel in every later start, and no new one is made.
* `C224_unwritable_violated`: If the file cannot be written, every start has the destination that the SAM server happens to make.
* `C225_second_violated`: A connection that is made while the tunnel serves another one is never served, however long it waits.
* `C226_minimum_violated`: A client that needs version 3.3 is not told that the router does not have it; it is told that an older version was agreed on.
* `C227_busy_violated`: A client that goes on asking and is answered every time is cut off all the same, at the first poll ten seconds after its greeting.
* `C229_crash_violated`: With SSU2 alone, a request to connect to any known router that cannot be reached over SSU2 ends the router with a panic.
* `C229_ssu2_violated`: With both transports enabled, a router that can be reached over SSU2 only is never connected to.
* `C230_ipv6_violated`: NTCP2 dials, and takes connections from, every IPv6 address, the loopback address and unique local addresses included.
* `C230_ssu2_violated`: SSU2 dials every address that a router info gives, private or not, whether or not local addresses are allowed.
* `C231_port_violated`: When the port is left to the operating system, the port published with an external address is 0, not the port of the socket.
* `C232_accept_violated`: The first error when a connection is accepted (too many open files, a connection that was reset before it was accepted) ends the transport and with it the router, whatever else is going on.
* `C232_send_violated`: So does the first error when a datagram is sent (no route, not permitted, too long), and the packets behind it are not sent.
* `C234_refused_violated`: When a handshake with a stranger fails, the handshakes that ended after it wait, and nothing wakes the transport.
* `C234_second_violated`: Of two connections that arrive before the first handshake is under way, the second waits when the transport goes to sleep, and nothing wakes it.
* `C237_debug_violated`: Fails in debug builds: a gateway or endpoint that is sent a message for the other kind of tunnel ends the process.
* `C239_lost_violated`: Fails at the end of a tunnel: what it carried since it last reported is never counted.
* `C240_junk_violated`: Fails when anything else is sent to the tunnel first: the reply that comes next is lost and the tunnel is gone.
* `C242_extra_violated`: Fails for DSA keys: a signature with anything after it is accepted as well.
* `C245_broken_violated`: If the connection to the destination breaks before the request is written, the browser is told nothing.
* `C245_silent_violated`: A request whose head does not fit the buffer of 8192 bytes is never answered, however it is sent: the connection is closed without a word. So is every request that takes too long.
* `C246_markup_violated`: Whatever markup is put before `.i2p` in the `Host` of a request becomes markup of the page.
* `C247_async_violated`: With async-std the address of this end is reported, for every connection.
* `C247_private_violated`: And a router with a public address takes connections from private addresses.
* `C247_refused_violated`: So a router behind a private address takes no connection at all, from whomever, unless local addresses are allowed.
* `C248_dead_violated`: With async-std, one error while receiving ends the socket for good: whatever happens after, nothing is handed to the system, nothing that arrives is given to the router, and every call for sending fails.
* `C248_full_violated`: With async-std, when the channel is full, sending a datagram is reported as done, and whatever happens after, the system is handed what it would have been without it.
* `C248_long_violated`: With async-std and debug assertions, a datagram that is longer than the buffer panics; SSU2 has 2048 bytes of buffer.
* `C249_ended_violated`: With tokio, a set of which a task panicked says that it ended, once for each such task if it is polled to the end, whatever other tasks are in it.
* `C253_full_violated`: C253 (violated): a packet for a session in whose channel 256 packets wait is thrown away, whoever sent it and whatever it contains.
* `C254_end_panics_violated`: The socket sees that a session has ended: it panics.
* `C254_manager_never_told_violated`: C254 (violated): the transport manager is never told that an SSU2 connection is closed.
* `C254_peer_ends_router_violated`: C254 (violated): any peer with an active session can end the router. It sends the packet the specification gives for closing a session: a data packet with a termination block, with any reason. The session ends, the socket wants to tell the peer, and panics.
* `C255_id_dead_violated`: C255 (violated): once a session is gone, its connection id is of no use any more: every packet with that id, also the token request of a new connection, is thrown away.
* `C255_ids_kept_violated`: C255 (violated): a connection id, once registered, stays registered whatever happens: after a failed handshake, a rejection or the end of the session.
* `C255_token_requests_violated`: C255 (violated): every token request that is answered, from any address, takes an entry of its own, for ever.
* `C257_never_times_out_violated`: C257 (violated): a connection is only ever ended by the peer: whatever happens and however long it takes, an active session whose packets are not termination packets stays active; in particular if no packet comes at all. The other subsystems go on believing in it.
* `C261_both_ask_violated`: When both routers ask for a connection and nothing goes wrong, then in every order in which the handshakes end, each router drops the connection of the other and keeps its own, which the other has dropped. When they notice, no connection is left, no handshake is under way and neither router dials again by itself.
* `C262_backlog_violated`: When the transport takes its first connection from the listener, the others that wait there stay, and it is not woken for them, nor for any number of connections that arrive.
* `C262_failed_handshake_violated`: When an inbound handshake has failed, the transport says that there is nothing to do although other handshakes may have ended, with sessions or failures that the manager waits for. It is not woken for those, nor for further handshakes that end.
* `C264_named_violated`: Any router of which the router info is known is asked, floodfill or not, if it is named in an answer to a search. Anybody may give the answer.
* `C266_gateway_violated`: While the port mapper does not answer, which takes as long as its gateway likes, the loop neither polls the router nor looks at Ctrl-C or the button: however often the user asks, nothing happens.
* `C267_rate_violated`: The success rate is not the percentage rounded down: of 29 tunnels out of 100 it says 28 percent.
* `C268_trailing_violated`: Targets at the end for which no level is given are silently ignored, whatever they are.
* `C268_unknown_violated`: A level that is not known makes the program panic, and it does so on the next start too if the option is in the configuration file.
* `C269_address_book_violated`: Without the HTTP proxy the address lists are never downloaded.
* `C269_alone_violated`: And a router without a reseed section starts without knowing anybody, and can never join the network.
* `C269_no_sam_violated`: Without the SAM server none of them runs, however they are configured, and the start does not fail.
* `C270_bound_violated`: Refuted: a build request that the pool was given for one of its tunnels is dropped when that tunnel has expired meanwhile, whatever other tunnels there are.
* `C270_expired_violated`: Refuted with debug assertions: the first waiting message that names a tunnel which has expired meanwhile ends the pool.
* `C270_no_tunnel_violated`: Refuted for messages that a pool has accepted: while the pool's events say that no outbound tunnel is up, every message that waits is taken and nothing is sent for it, and whoever gave it to the pool was told that it was accepted.
* `C271_unanswered_violated`: C271 is false without the bound: a side that goes on after its ratchet without hearing anything uses entries of the old set that the other side never generates (there are only so many as were generated ahead and a few more), and its messages are not read. (With four entries ahead and one more; there are 4096 and 128 in the code.)
* `C272_unpadded_answer_violated`: C272 is violated: a router that answers this one without padding cannot read the third message.
* `C272_unpadded_request_violated`: C272 is violated: a router that dials this one without padding, as the specification allows, cannot read the answer, because what is hashed is not what the specification hashes. `hA` says that the cipher notices it.
* `C274_encrypted_lookups_violated`: C274, refuted for lookups that ask for an encrypted reply: none of them is read.
* `C275_offline_length_violated`: C275 is violated for a destination with a DSA key: a lease set signed with a transient key that the destination signed is not read, because the signature of the transient key is taken to be as long as those of the transient key.
* `C275_other_keys_violated`: C275: a lease set all of whose keys are of other types than X25519 is not read.
* `C275_other_transports_violated`: C275: a router info that has an address of another transport besides is not read at all, wherever the address is in the list and whatever comes after it.
* `C276_compressed_info_violated`: C276 as the specification has it fails: the router info of a `SessionConfirmed` may be compressed, but a responder then gives the session up, and in a debug build panics, whatever comes before and after.
* `C276_unknown_blocks_violated`: C276 as the specification has it fails: "implementations must ignore unknown block types", but a token request with a block of a type that the specification does not give (14, or 22 and up, but for padding), after any other blocks and with anything behind it, gets no answer: it is an error, and in a debug build a panic.
* `C278_token_violated`: C278 is violated when the token drawn is zero, which nothing excludes: whatever the floodfill makes of the store, it does not ask for a delivery status, and the lease set is looked for where the tunnel id and the gateway are.
* `C280_request_violated`: C280 violated: the request of a destination of another implementation that has no database store among its blocks is refused, although its keys are right; the messages in it are lost, and nothing is kept of it.
* `C282_peer_closes_violated`: The code throws it away when the peer closes: for every running stream that misses nothing of the peer, after a `CLOSE` of the peer and the acknowledgement timer the task is over, although a packet with what the client wrote is not acknowledged, or has never been sent.
* `C283_client_done_violated`: The code gives the client nothing after the client has stopped writing: whatever arrives later, not even the rest of a message of which a part was given.
* `C283_peer_done_violated`: The code takes nothing from the client after the peer has stopped writing: whatever the client writes later stays in its socket.
* `C284_vanished_violated`: The code never gives up: a running stream whose peer has not closed goes on for ever if nothing comes from outside any more, however often its packets are sent again, and also after the client has closed it or the session has asked it to shut down.
* `C285_hash_instead_violated`: The code gives the hash instead of the destination: for every destination, the line a client gets who accepts a stream is not the one that SAM specifies, and a `STREAM CONNECT` to what is in it is refused.
* `C286_older_peers_violated`: The code turns away peers that do not repeat the hash: a `SYN` that is right in every other respect, as implementations before 2023 send it, with an empty NACK field, or any but eight numbers in it, has no effect at all.
* `C287_close_violated`: The same with `CLOSE`: once nothing is missing, the stream ends as if the peer had closed it, and the client's own data is read no more.
* `C287_reset_violated`: The code asks for no proof: whoever knows the number of a stream ends it. For every open stream and every running task behind it, a `RESET` without signature and without sender is handed to the task, and the task is over.
* `C288_ignored_violated`: What the peer asks for is ignored: in every state, a packet has the same effect whatever it asks for.
* `C288_too_large_violated`: So a peer that takes packets of at most `limit` bytes, or that takes none for now, is sent one with 1812 bytes of data as soon as the client has written them: the packets the peer cannot take are sent again, and refused again, for ever (the specification has 1730 as the size unless the peer says otherwise).
* `C289_forged_violated`: Success proves little: whoever has seen the number of a test ends it well with any garlic message under this number, whatever is in it, and by whatever tunnel of the pool it comes.
* `C289_still_used_violated`: A tunnel whose tests fail is used as before: whichever tests end at a poll, and so whatever came of them, the pool has afterwards the same tunnels, offers the same for use, keeps the same timers, builds the same and tells its owner the same.
* `C290_newer_violated`: Datagrams of the formats that came later, whose protocols are 19 and 20, are dropped.
* `C290_types_violated`: Datagrams from destinations of the other types are refused, and so are those for DSA with a key certificate.
* `C292_close_violated`: That a stream ends once its client has closed it and its peer has taken everything. The number of the `CLOSE` packet is never acknowledged by a stream of this implementation, because packets without data are not counted: the packet is kept and sent again until something else ends the stream.
* `C293_manager_ends_violated`: A session that waits for its pool when the tunnel manager ends brings down the task it runs in.
* `C293_unanswered_violated`: A session that was asked for after the network database ended, or while its channel stays full, waits for ever: it is never established and never given up, whatever else happens, and so its client gets no answer.
* `C294_inbound_violated`: A stream that a remote opens to a port while there is a listener is answered, and a packet is sent; but no packet that is ever sent on it comes from the port that was called or goes to the port that called, unless these are 0.
* `C294_waiting_violated`: A stream that waited for a listener changes its ports: it is first answered from the port that was called and then sends from the port 0.
* `C295_expired_violated`: A message that has expired when the client gives it is sent all the same.
* `C295_waits_violated`: A message that waits for a lease set is sent when it is found, at whatever time and so also after its expiration.
* `C296_none_violated`: A client that asks for tunnels without hops, or with more than 8, gets none: no attempt to build one ever comes to a request.
* `C296_sam_violated`: The options of a SAM client change nothing: all its tunnels have two hops, so if it asks for another number no tunnel has that number.
* `C297_dials_violated`: The same holds for builds whose first router cannot be reached.
* `C297_inbound_violated`: If the first routers cannot be dialled, every build leaves its listener in the routing table.
* `C297_tests_violated`: The listener of a test that is too late stays, so that there are as many listeners for which nobody waits as there were such tests.
* `C298_lookup_violated`: A name that a session finds at once is not found by the same client before it has the session.
* `C299_cut_violated`: Of a longer one only a part is sent.
* `C299_size_violated`: A message without a payload, or with one of 65527 to 65536 bytes, brings the session down.
* `C300_last_number_violated`: So does a packet with data after the last number: one more byte from a peer whose numbers have reached the end ends the stream with a panic, in builds that check overflows.
* `C300_syn_violated`: The code fails where it should not: a `SYN` that the peer sends again ends a running stream with a panic, if the channel to the session is full when it comes.
* `C301_panic_violated`: The code does not keep them apart: one stream that panics ends its session with all other streams.
* `C301_two_packets_violated`: Two packets of a peer are enough where overflows are checked. The first, with the last number there is, comes before the client has a socket for the stream and is taken. The second, with any data and any number, comes when the client has taken the first one.

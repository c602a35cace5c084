#!/usr/bin/env python3
"""Single source for properties.jsonl.  Run: python3 tools/props.py"""
import json, os
P = []
def p(title, statement, quantifier, why, *anchors):
    P.append(dict(id="C%02d" % (len(P)+1), title=title, statement=statement, quantifier=quantifier,
                  why_tests_cant=why, anchors=list(anchors)))
S="emissary-core/src/"
ST=S+"sam/protocol/streaming/"

# ---------------------------------------------------------------- streaming
p("Stream bytes arrive in order, without gaps, duplicates or corruption",
  "Whatever bytes one end of an I2P stream writes, the bytes the other end's application reads are at every moment a prefix of the bytes written, no matter how the tunnels between them drop, duplicate, delay or reorder packets.",
  "every written byte string, every split into writes, every network behaviour (finite sequence of deliveries of sent packets with any loss, duplication and reordering)",
  "the schedule space of loss/duplication/reordering is unbounded; a test fixes one schedule",
  ST+"stream/active.rs: InboundContext::handle_packet, Stream::packetize")
p("Stream bytes all arrive once every packet has arrived",
  "If every data packet of the stream has reached the receiver at least once, in whatever order and however often (and none ran further ahead than the receiver's look-ahead limit), the application can read exactly the bytes written: nothing stays stuck in the reorder buffer.",
  "every written byte string and every arrival order covering all packets",
  "needs a liveness-style argument over all arrival orders",
  ST+"stream/active.rs: InboundContext::handle_packet")
p("A stream acknowledges only packets it has received",
  "In every packet a stream sends back, each sequence number it acknowledges (at most ack-through and not listed as NACK) belongs to a packet the stream really received.",
  "every sequence of received packets",
  "a false ack only shows up as silent data loss under a particular loss pattern",
  ST+"stream/active.rs: InboundContext::{handle_packet,missing}, Stream::on_packet")
p("Look-ahead limit on sequence numbers",
  "A packet is refused exactly when its sequence number is more than 513 beyond the highest one seen; a refused packet ends the stream without being recorded, an accepted one adds at most 512 missing sequence numbers, and a peer running the same code never triggers the limit whatever the network does.",
  "every stream state and every sequence number",
  "attackers choose the sequence number; tests sample a few",
  ST+"stream/active.rs: InboundContext::handle_packet, MAX_WINDOW_LOOKAHEAD")
p("Congestion window stays within 1..=128 and bounds unacknowledged packets",
  "At every moment of a stream's life its congestion window is between 1 and 128 packets and the number of packets sent but not yet acknowledged never exceeds 128.",
  "every history of writes, acks, nacks and retransmission timeouts",
  "invariant over unbounded histories",
  ST+"stream/active.rs: handle_acks, packetize, resend, MAX_WINDOW_SIZE")
p("Written data is retained until the peer acknowledges it",
  "Every data packet created from application writes stays queued (sent-unacknowledged or waiting for window) with its original bytes until the peer acknowledges its sequence number, in exactly one of the two queues; only written data is ever queued, and an acknowledgement releases exactly the sent packets it covers.",
  "every history of writes, acks, nacks and timeouts",
  "loss of a queued packet needs a specific interleaving of acks, nacks and window limits",
  ST+"stream/active.rs: packetize, handle_acks, resend")
p("A close request never discards data that was sent before it",
  "When the remote closes a stream, the local application still receives every byte the remote sent before the close, even if the close overtakes data packets.",
  "every interleaving of data packets and the close packet",
  "depends on packet reordering around the close",
  ST+"stream/active.rs: InboundContext::can_close, Stream::on_packet, poll")
p("Data received before accept is delivered in order and without gaps",
  "Packets received on an inbound stream before the application accepts it are handed over as a gap-free prefix of what the remote sent, and only received packets are acknowledged.",
  "every arrival order of the first packets of a stream",
  "depends on reordering before accept",
  ST+"stream/pending.rs: PendingStream::on_packet")
p("STREAM ACCEPT and STREAM FORWARD are mutually exclusive",
  "A SAM session never has accept sockets and a forward socket registered at the same time, and a listener that failed to register does not disturb the ones already registered.",
  "every history of ACCEPT, FORWARD, status-write completion and failures, and inbound connections",
  "races between registration, status writes and inbound streams",
  ST+"listener.rs: StreamListener::{register_listener,pop_socket,poll_next}")
p("Stream packets are delivered only to the stream they address",
  "A non-SYN packet is delivered to the stream whose receive id it carries or dropped; a packet with an unknown id never creates or alters a stream; and an inbound stream is created only by a SYN with a valid signature by the destination it names.",
  "every table of streams and every packet",
  "needs all stream tables and packets",
  ST+"mod.rs: StreamManager::{on_packet,on_synchronize}")
p("Streaming packet header round-trips",
  "Parsing the bytes the packet builder emits returns exactly the stream ids, sequence number, ack-through, nack list, resend delay, flags, options and payload given to the builder.",
  "every combination of header fields, nack list up to 255 entries, payload",
  "field combinations are unbounded",
  ST+"packet.rs: Packet::parse, PacketBuilder::build")
# ---------------------------------------------------------------- tunnel data
p("Tunnel fragmentation and reassembly is lossless",
  "Splitting any I2NP message into tunnel-data messages and feeding the fragments to the reassembler in any order, with any duplicates of follow-on fragments before completion, yields exactly the original message exactly when the last distinct fragment arrives.",
  "every message that fits in 64 fragments, every arrival order",
  "fragment counts, sizes and orders are unbounded for testing",
  S+"i2np/tunnel/data.rs: TunnelDataBuilder::build", S+"tunnel/fragment.rs: FragmentHandler")
p("Every tunnel data message has the fixed size",
  "Every message the tunnel data builder emits has exactly the 1028-byte body (4-byte tunnel id, 16-byte IV, 1008 encrypted bytes), so message sizes leak nothing about the payload.",
  "every payload and delivery instruction",
  "off-by-one at any payload length breaks it",
  S+"i2np/tunnel/data.rs: TunnelDataBuilder::build")
p("Reassembler emits a message only when every fragment is present",
  "The tunnel reassembler hands over a message only if it holds the first fragment and all follow-on fragments 1..n where n is the one marked last, concatenated in order.",
  "every sequence of fragments, including adversarial ones",
  "adversarial fragment numberings",
  S+"tunnel/fragment.rs: FragmentHandler, Fragment::is_ready")
p("Tunnel data payload framing is unambiguous",
  "The outbound endpoint (and inbound gateway owner) locates the payload of a tunnel data message exactly where the gateway put it: after non-zero padding and the first zero byte, and rejects the message if the checksum over payload and IV does not match.",
  "every padding, payload and checksum",
  "padding content is random",
  S+"tunnel/transit/outbound.rs: find_payload_start", S+"i2np/tunnel/data.rs")
# ---------------------------------------------------------------- i2np
p("I2NP short-header framing round-trips",
  "Parsing the bytes of an I2NP message built with the short (transport) header returns the same type, id, expiration second and payload and leaves any following bytes untouched.",
  "every message whose payload fits the 16-bit size, any trailing bytes",
  "payload length boundaries",
  S+"i2np/mod.rs: MessageBuilder::build, Message::parse_short")
p("I2NP standard-header framing round-trips",
  "Parsing the bytes of an I2NP message built with the standard (tunnel) header returns the same type, id, expiration and payload.",
  "every message whose payload fits the 16-bit size, any trailing bytes",
  "payload length boundaries",
  S+"i2np/mod.rs: MessageBuilder::build, Message::parse_standard")
p("I2NP payload sizes are never silently truncated on the wire",
  "A message too large for the 16-bit size field of its header is refused rather than emitted with a wrapped size.",
  "every payload length",
  "needs >64 KiB inputs nobody tests",
  S+"i2np/mod.rs: MessageBuilder::build")
p("TunnelGateway, DeliveryStatus and search-reply messages round-trip",
  "For TunnelGateway, DeliveryStatus and DatabaseSearchReply, parsing the serialized message returns the original message.",
  "every message value whose variable part fits its length field",
  "value space unbounded",
  S+"i2np/tunnel/gateway.rs", S+"i2np/delivery_status.rs", S+"i2np/database/search_reply.rs")
p("Database lookup round-trips",
  "Parsing a serialized database lookup returns the same key, lookup kind, reply route, excluded peers (at most 512).",
  "every lookup value",
  "value space unbounded",
  S+"i2np/database/lookup.rs: DatabaseLookup, DatabaseLookupBuilder")
p("Database store round-trips",
  "Parsing a serialized database store returns the same key, store kind, reply route and payload boundaries.",
  "every store value with well-formed payload",
  "value space unbounded",
  S+"i2np/database/store.rs: DatabaseStore, DatabaseStoreBuilder")
p("Garlic message blocks round-trip",
  "Parsing the garlic message the builder produces returns the same blocks in the same order (date-time, cloves with delivery instructions, next-key, ack, ack-request, padding).",
  "every list of blocks whose sizes fit",
  "block sequences unbounded",
  S+"i2np/garlic.rs: GarlicMessage::parse, GarlicMessageBuilder::build")
p("Short tunnel build records round-trip and have a fixed size",
  "Every short build record is 154 bytes whatever its content, and parsing it returns the tunnel ids, next hop, role and next message id it was built with, whatever the random padding.",
  "every record value and padding", "value space unbounded", S+"i2np/tunnel/build/short.rs: TunnelBuildRecordBuilder::serialize, TunnelBuildRecord::parse")
p("I2P strings round-trip",
  "Parsing a serialized I2P string (at most 255 bytes) returns the same string and leaves following bytes untouched.",
  "every string and trailing bytes", "length boundary at 255/256",
  S+"primitives/string.rs: Str")
p("I2P mappings round-trip",
  "Parsing a serialized list of key/value mappings returns the same pairs in the same order, consuming exactly the announced bytes.",
  "every list of mappings whose total size fits 16 bits, any trailing bytes",
  "list sizes unbounded", S+"primitives/mapping.rs: Mapping")
p("Destination parsing is the inverse of its serialization",
  "A parsed destination re-serializes to exactly the bytes it was parsed from, its reported length is the consumed length, and its verifying key is the one at the certified offset.",
  "every byte string accepted by the parser",
  "byte-level input space", S+"primitives/destination.rs: Destination")
p("Router identity parsing keeps the wire image",
  "A parsed router identity consumes exactly 391 bytes, accepts only X25519/Ed25519 key certificates and serializes back to the same bytes.",
  "every byte string", "byte-level input space", S+"primitives/router_identity.rs")
p("Lease set round-trips",
  "Parsing a serialized LeaseSet2 returns the same destination, publication and expiry time, encryption keys and leases, provided its signature verifies.",
  "every lease set value", "value space unbounded; expiry offset truncation",
  S+"primitives/lease_set.rs: LeaseSet2, LeaseSet2Header, Lease")
p("Lease set is accepted only with a valid signature over all preceding bytes",
  "A lease set is accepted only if the signature verifies, under the key of the destination inside it (or its valid transient key), over the type byte and every preceding byte.",
  "every byte string and signature oracle", "adversarial inputs",
  S+"primitives/lease_set.rs: LeaseSet2::parse")
# ---------------------------------------------------------------- transports
p("NTCP2 session message blocks round-trip",
  "Parsing the plaintext of an NTCP2 frame made of any sequence of blocks yields those blocks in order; every parse consumes the whole frame or fails.",
  "every sequence of blocks", "block sequences unbounded",
  S+"transport/ntcp2/message.rs: MessageBlock")
p("NTCP2 handshake options round-trip",
  "Parsing serialized initiator and responder handshake options returns the same fields.",
  "every field combination", "value space", S+"transport/ntcp2/options.rs")
p("NTCP2 frame reader is independent of TCP segmentation",
  "The frames an NTCP2 session decodes depend only on the byte stream received, not on how TCP split it into reads, and a frame that fails to parse does not affect how later frames are delimited.",
  "every byte stream and every segmentation into reads",
  "segmentations are unbounded", S+"transport/ntcp2/session/active.rs: Ntcp2Session::poll")
p("NTCP2 length obfuscation stays synchronised",
  "The receiver's de-obfuscated frame lengths equal the lengths the sender obfuscated, for every frame of the session.",
  "every sequence of frame lengths and every keyed hash",
  "unbounded session length", S+"crypto/siphash.rs: SipHash")
p("AEAD nonces never repeat under one key",
  "A cipher state never encrypts two messages with the same nonce; on exhaustion it reports an error instead of wrapping.",
  "every number of encryptions", "2^64 operations", S+"crypto/chachapoly.rs: ChaChaPoly, Nonce")
p("SSU2 acks cover only received packets",
  "An SSU2 ack block (ack-through, count, ranges) built by the receiver acknowledges only packet numbers that were received.",
  "every sequence of received packet numbers", "wide gaps and long runs needed to fail",
  S+"transport/ssu2/session/active/ack.rs: RemoteAckManager")
p("SSU2 fragment reassembly is lossless",
  "Fragments of one I2NP message delivered in any order with duplicates yield exactly the original message once, when all have arrived.",
  "every message, fragmentation and arrival order", "orders unbounded",
  S+"transport/ssu2/session/active/fragment.rs: FragmentHandler")
p("SSU2 duplicate filter never reports a fresh message as duplicate and remembers recent ones",
  "A message id is reported as duplicate iff it was seen since the older of the two filter generations began.",
  "every sequence of ids and decay events", "history-dependent",
  S+"transport/ssu2/session/active/duplicate.rs: DuplicateFilter")
p("SSU2 block parsing accepts exactly well-formed block sequences",
  "Parsing the serialization of a sequence of SSU2 blocks gives the same blocks, and no input makes the parser panic or read outside the datagram.",
  "every byte string / block sequence", "adversarial datagrams",
  S+"transport/ssu2/message.rs: Block")
p("Bloom filter has no false negatives",
  "An element inserted into the transit tunnels' replay filter is always reported as present afterwards until the filter decays.",
  "every insertion history and hash function", "history-dependent", S+"bloom.rs: BloomFilter")
# ---------------------------------------------------------------- netdb
p("XOR distance is a metric and identifies keys",
  "Kademlia distance is symmetric, zero exactly for equal keys and satisfies the unidirectionality property used to rank routers.",
  "every pair/triple of 256-bit keys", "2^512 pairs", S+"netdb/types.rs: Distance, Key")
p("K-buckets are bounded and never hold a router twice",
  "Each k-bucket holds at most 20 routers and no router twice, whatever sequence of insertions and lookups happens.",
  "every history", "history-dependent", S+"netdb/bucket.rs: KBucket")
p("Closest-router lookups return distinct routers sorted by distance",
  "The routers returned by a closest-router lookup are distinct, none of the ignored ones appear and they are sorted by XOR distance to the key.",
  "every routing table and key", "table/key space", S+"netdb/routing_table.rs, netdb/dht.rs")
# ---------------------------------------------------------------- tunnels
p("Transit tunnel limit is never exceeded",
  "A router never participates in more transit tunnels than configured, accepts none while shutting down or when transit is disabled, and every rejected request is answered with the bandwidth-reject code.",
  "every history of build requests, expirations and shutdown", "history-dependent",
  S+"tunnel/transit/mod.rs: TransitTunnelManager")
p("A tunnel id is owned by at most one transit tunnel",
  "Adding a tunnel under an id in use is refused without disturbing the existing owner, and messages are routed to the tunnel that owns the id or rejected.",
  "every history of tunnel registrations and removals", "history-dependent",
  S+"tunnel/routing_table.rs: RoutingTable")
p("Tunnel build replies reach their listener exactly once",
  "A listener registered for a message id receives the first matching message and no other; afterwards the id is free again.",
  "every history of registrations and messages", "history-dependent",
  S+"tunnel/routing_table.rs: insert_listener, route_listener_message")
p("Layered tunnel encryption cancels out",
  "Data sent through an outbound tunnel leaves the endpoint in clear after each hop adds one layer, and data arriving from an inbound tunnel is recovered by the owner after removing one layer per hop, for any number of hops.",
  "every tunnel length, keys and block ciphers that are permutations", "all hop counts and keys",
  S+"tunnel/noise.rs: TunnelKeys", S+"tunnel/hop/{inbound,outbound}.rs")
p("Tunnel participation counters are exact",
  "The per-router participation counts used to avoid over-using a router equal the number of active tunnels containing that router, at every moment.",
  "every history of tunnel additions and removals", "history-dependent",
  S+"tunnel/pool/selector.rs: ExploratorySelector::{add_tunnel,remove_tunnel}")
p("Selected tunnel hops are distinct and in distinct subnets",
  "A tunnel never contains the same router twice nor two routers in the same /16 subnet.",
  "every router set and selection randomness", "random selection",
  S+"tunnel/pool/selector.rs: select_hops, group_by_subnet")
# ---------------------------------------------------------------- profiles, routing path, queries
p("Router reachability profile reflects recent failures",
  "A router is treated as unreachable iff its last dial failure is recent, and as declining iff its last decline is recent.",
  "every profile and time", "time-dependent", S+"profile.rs: Profile::is_unreachable, has_recently_declined")
p("Every known reachable router is selectable from some profile bucket",
  "Building the profile storage places every usable router with a profile in exactly one bucket.",
  "every router and profile set", "set-dependent", S+"profile.rs: ProfileStorage::new")
p("Routing paths never use expired or removed tunnels",
  "A routing path handed out by the path handle uses an outbound tunnel that is currently registered and an inbound tunnel with enough remaining life, prefers healthy tunnels over expiring ones over failing ones, and is dropped when its tunnels expire.",
  "every history of tunnel events and path requests", "history-dependent",
  S+"destination/routing_path.rs: RoutingPathHandle")
p("Message dispatch delivers every inbound message to exactly one subsystem in order",
  "A batch of I2NP messages from a router is partitioned between the tunnel and network-database subsystems, each message to exactly one and in arrival order.",
  "every batch", "batch contents unbounded", S+"subsystem.rs: SubsystemHandle::dispatch_messages")
p("Graceful shutdown completes exactly when every subsystem has finished",
  "Shutdown is reported complete iff it was requested and every registered subsystem acknowledged; a second request forces it.",
  "every interleaving of requests and acknowledgements", "interleavings", S+"shutdown.rs")
# ---------------------------------------------------------------- sessions
p("Session tags are single use",
  "A garlic session tag decrypts at most one message; replaying a message with a consumed tag fails.",
  "every history of messages", "history-dependent", S+"destination/session/{mod,session}.rs")
p("Tag set keys and tag indices never repeat",
  "Within one tag set every entry has a fresh strictly increasing index, and generation stops with an error rather than wrapping.",
  "every number of entries, any KDF", "65535 entries", S+"destination/session/tag_set.rs: TagSet::next_entry")
p("DH ratchet key ids advance in lock-step",
  "Both ends of a session derive the same tag-set id for each completed DH ratchet and ids never wrap past the protocol maximum.",
  "every number of ratchets", "32767 ratchets", S+"destination/session/tag_set.rs: handle_next_key")
# ---------------------------------------------------------------- added while modelling
p("Router infos and router addresses round-trip",
  "Serializing a router info (identity, publication time, addresses, options) and parsing the result returns the same identity, publication time, addresses and options.",
  "every router info within the wire format's size limits, any signature scheme", "unbounded addresses and options",
  S+"primitives/router_info.rs: RouterInfo::{serialize,parse}", S+"primitives/router_address.rs: RouterAddress")
p("Router infos are accepted only when signed by their own identity",
  "If a router info is accepted then its last 64 bytes are a valid signature, under the signing key in the router info itself, of every byte before them.",
  "every byte string", "all inputs, any signature scheme", S+"primitives/router_info.rs: RouterInfo::parse")
p("Transient signing keys are accepted only when certified and unexpired",
  "A transient key in a streaming packet or datagram is used only if the destination signed it and it has not expired; a certified unexpired key is always accepted.",
  "every byte string, destination and time", "all inputs", S+"primitives/offline_signature.rs: OfflineSignature::parse_frame")
p("Lease set liveness",
  "A lease set is treated as live iff its header has not expired and it has some unexpired lease; the reported expiration is the earliest lease expiration.",
  "every lease set and time", "unbounded leases, time", S+"primitives/lease_set.rs: LeaseSet2::{is_expired,expires}")
p("Unsupported garlic blocks are ignored",
  "A garlic message block of a kind the router does not support is skipped and has no effect on how the other blocks of the message are processed.",
  "every message and every unsupported block at every position", "all messages and positions",
  S+"i2np/garlic.rs: GarlicMessage::parse_frame")
p("Every well-formed variable build record is understood",
  "A 464-byte variable tunnel build record with any options mapping that fits the record is parsed into the fields its creator wrote.",
  "every record, options and padding", "all option sizes", S+"i2np/tunnel/build/variable.rs: TunnelBuildRecord::parse_frame")
p("Outbound streams connect only to the requested destination",
  "When a client is told its stream is connected, the answer came from the destination it asked for.",
  "every history of connection requests and packets from any destinations", "adversarial packets",
  ST+"mod.rs: StreamManager::on_synchronize")
p("A stream is unregistered only when it ends or its own session is removed",
  "Once open, a stream keeps receiving its packets until it finishes itself or the session of its destination is removed; events about other streams never unregister it.",
  "every history of packets, completions and session removals", "id reuse across streams",
  ST+"mod.rs: StreamManager::{remove_session,poll_next}")
p("The stream handshake completes between two endpoints",
  "The SYN one endpoint sends is accepted by the endpoint it is addressed to, with or without a waiting listener, and its SYN-ACK opens the stream at the initiator.",
  "every id, key and signature scheme that verifies its own signatures", "all states and keys",
  ST+"mod.rs: StreamManager::{create_stream,on_synchronize}", ST+"stream/pending.rs: PendingStream::new")
p("Stream manager shutdown",
  "After shutdown is requested no new stream is opened, and the manager reports that it has shut down as soon as the last stream has ended (right away if there is none).",
  "every history and completion order", "interleavings", ST+"mod.rs: StreamManager::{shutdown,poll_next}")
p("A retried SYN is answered",
  "A remote whose SYN-ACK was lost and that sends its SYN again gets the SYN-ACK again.",
  "every state with the stream waiting for a listener", "loss patterns", ST+"stream/pending.rs: PendingStream::on_packet")
p("NTCP2 messages arrive in order and exactly once",
  "Over an established NTCP2 session, for any sequence of messages and any splitting of the byte stream by the two sockets, the receiver hands on a prefix of the messages the sender accepted, in order, each exactly once (expired ones dropped), and all of them once every byte has arrived.",
  "every message sequence, write and read schedule, and point of interruption", "unbounded schedules of partial reads and writes",
  S+"transport/ntcp2/session/active.rs: Ntcp2Session::poll", S+"transport/ntcp2/message.rs: MessageBlock::new_i2np_message")
p("A connection request uses a free stream id",
  "A new outbound stream never takes the id of an open or requested stream, and opening it leaves every other stream as it was.",
  "every manager state and drawn id", "id collisions", ST+"mod.rs: StreamManager::create_stream")
p("A connection request is retried a bounded number of times",
  "A connection request sends its SYN at most three times; when the third goes unanswered the client is told once that the stream was rejected, and nothing more is sent for it.",
  "every history of packets, timers and other streams after the request", "interleavings of timers with all other events",
  ST+"mod.rs: StreamManager::{create_stream,poll_next}")
p("SSU2 acknowledgement state is bounded by what was received",
  "The memory a session keeps for acknowledgements is bounded by the number of packets received (and by a window), whatever packet numbers the peer chooses.",
  "every sequence of packet numbers", "adversarial packet numbers", S+"transport/ssu2/session/active/ack.rs: RemoteAckManager::register_pkt")
p("An SSU2 message is delivered exactly once",
  "A message handed to an SSU2 session is handed on by the receiving session exactly once if all its packets arrive at least once, in any order and with repetitions, interleaved with packets of other messages.",
  "every message, arrival order, repetition and interleaving, with at most one rotation of the duplicate filter while the message's packets arrive", "orders and repetitions of fragments; sizes at the fragmentation boundary",
  S+"transport/ssu2/session/active/mod.rs: Ssu2Session::{send_message,handle_packet,handle_message}", S+"transport/ssu2/session/active/fragment.rs: FragmentHandler")
p("Router capabilities are read as specified",
  "A router counts as reachable exactly when it publishes neither U nor H and has an address with host and port; floodfill, usability and bandwidth class are those of the published letters, and with them whether it counts as fast or standard.",
  "every capability string and address list", "all strings and address combinations", S+"primitives/capabilities.rs: Capabilities::parse", S+"primitives/router_info.rs: RouterInfo::is_reachable")
M2=S+"transport/ssu2/message.rs: "
p("An SSU2 packet is read back by its addressee",
  "A packet built for a peer is, when it arrives unchanged, attributed by the peer to the session with the destination connection id and read back to the kind, packet number, token and contents that were sent.",
  "every connection id, packet number, token, message, fragment, acknowledgement, set of other sessions and key", "all headers, contents and keys; masking depends on the ciphertext",
  M2+"DataMessageBuilder, TokenRequestBuilder, RetryBuilder, SessionRequestBuilder, SessionCreatedBuilder, SessionConfirmedBuilder, HeaderReader", S+"transport/ssu2/socket.rs: Ssu2Socket::handle_packet")
p("Both ends of an SSU2 handshake agree",
  "If every handshake packet arrives, dialling a router ends in a session at both ends; each end encrypts with exactly the keys the other decrypts with, addresses the other by its connection id, and the first packet of the responder is accepted by the initiator.",
  "every pair of routers, random values, connection ids, paddings, clock values and build profile", "all keys and random values; agreement is about two parties' states",
  S+"transport/ssu2/session/pending/inbound.rs: InboundSsu2Session", S+"transport/ssu2/session/pending/outbound.rs: OutboundSsu2Session", S+"crypto/noise.rs: NoiseContext", S+"transport/ssu2/socket.rs: Ssu2Socket::connect")
p("No datagram crashes the SSU2 socket",
  "Whatever bytes arrive from the network, the socket neither panics nor stops; bytes it cannot use are dropped.",
  "every datagram, session table and key", "every byte string of every length", S+"transport/ssu2/socket.rs: Ssu2Socket::handle_packet", M2+"HeaderReader::{new,parse}")
p("Closing an SSU2 session tells the peer",
  "When a session is closed, a packet with the termination reason is sent to the peer.",
  "every session and reason", "every key and payload", S+"transport/ssu2/session/terminating.rs: TerminatingSsu2Session::new", M2+"DataMessageBuilder::build")
p("SSU2 packets go to the session they are addressed to",
  "A packet is handed to a session only if it carries that session's connection id under the router's own or, from an address being dialled, the dialled router's key; a packet that does carry it is handed on, with nothing but the header mask removed.",
  "every datagram, session table and key", "every datagram; a failed attempt with one key must leave no trace", S+"transport/ssu2/socket.rs: Ssu2Socket::handle_packet", M2+"HeaderReader::{dst_id,parse,reset_key}")
p("An inbound SSU2 session is with the router it is reported as",
  "A session is reported under a router id only if the peer proved that it holds the static key in that router's router info.",
  "every peer, static key and router info", "adversarial peers", S+"transport/ssu2/session/pending/inbound.rs: InboundSsu2Session::on_session_confirmed")
p("A dialled SSU2 session is reported under the dialled router's id",
  "When dialling a router succeeds or fails, the event names that router.",
  "every pair of routers", "every router info", S+"transport/ssu2/socket.rs: Ssu2Socket::connect")
p("A stray packet does not end an SSU2 handshake",
  "A packet that is not the one expected (forged, duplicated, retransmitted) is ignored and the handshake goes on.",
  "every handshake state and packet", "adversarial and duplicated packets", S+"transport/ssu2/session/pending/inbound.rs: InboundSsu2Session::on_packet", S+"transport/ssu2/session/pending/outbound.rs: OutboundSsu2Session::on_packet")
p("Every SSU2 handshake ends",
  "An unanswered handshake packet is sent again at the times the specification gives, then the handshake is given up, exactly once; no handshake waits for ever.",
  "every schedule of delays and every handshake state", "time", S+"transport/ssu2/session/pending/mod.rs: PacketRetransmitter")
p("An SSU2 responder checks the token",
  "A session request is answered only if it carries the token the responder issued to that address.",
  "every issued and presented token", "all tokens", S+"transport/ssu2/session/pending/inbound.rs: InboundSsu2Session::on_session_request")
p("SSU2 nonces are never reused",
  "A session never encrypts two packets under the same key and packet number.",
  "every number of packets sent", "2^32 packets", S+"transport/ssu2/session/active/mod.rs: Ssu2Session::next_pkt_num")
p("Both ends of an NTCP2 handshake agree",
  "Dialling a router of the same network over a faithful connection succeeds at both ends; the three messages and all keys are those the NTCP2 specification prescribes, each end's keys mirror the other's, the responder learns the initiator's router info, no byte after the handshake is consumed, and the resulting session carries messages in both directions.",
  "every pair of routers, static and ephemeral keys, paddings, clock values and following bytes", "all keys and random values; agreement is about two parties' states",
  S+"transport/ntcp2/session/initiator.rs: Initiator", S+"transport/ntcp2/session/responder.rs: Responder", S+"transport/ntcp2/session/mod.rs: SessionManager")
p("NTCP2 sessions stay within the network and the allowed addresses",
  "A session request for another network or protocol version is refused before anything is sent; a session is only accepted from a router info of the own network; a router with a private address (unless allowed) or without key, IV or address is not dialled.",
  "every request, router info and following bytes", "every network id, version, address and stream",
  S+"transport/ntcp2/session/responder.rs: Responder::new", S+"transport/ntcp2/session/mod.rs: SessionManager::accept_session_inner", S+"transport/ntcp2/session/mod.rs: SessionManager::create_session_inner")
p("An inbound NTCP2 session is with the router it is reported as",
  "A session is reported under a router's identity only if the peer proved that it holds the static key in that router's router info.",
  "every peer, static key and router info", "adversarial peers", S+"transport/ntcp2/session/responder.rs: Responder::finalize")
p("A peer cannot crash the router with NTCP2 handshake bytes",
  "Accepting and dialling end in a session or an error, whatever bytes the peer sends.",
  "every byte stream, local state and build profile", "every byte stream",
  S+"transport/ntcp2/session/mod.rs: SessionManager::accept_session_inner", S+"transport/ntcp2/session/mod.rs: SessionManager::create_session_inner")
p("Replayed and stale NTCP2 session requests are refused",
  "A session request made more than a minute ago, or seen before, is not answered.",
  "every request, age and number of repetitions", "time and history", S+"transport/ntcp2/session/responder.rs: Responder::new")
p("The start-up table keeps the best-performing floodfills",
  "When the network database starts with more known floodfills than its table can hold, the routers kept are those with the best recorded lookup performance.",
  "every set of routers and every recorded performance", "every set of profiles", S+"netdb/dht.rs: Dht::new")
p("At most one connection per router",
  "A connection to a router is accepted only if no other connection to that router is open, and every established connection is accepted or rejected.",
  "every history of requests, connections, failures and closings", "interleavings of two transports, lookups and peers", S+"transport/mod.rs: TransportManager")
p("A router is not dialled or looked up twice at once",
  "While a dial to a router or a lookup of its router info is under way, no other one is started.",
  "every history in which dials and lookups end at most once", "interleavings", S+"transport/mod.rs: TransportManager::on_dial_router")
p("A router can be reached again after its connection closed",
  "When no connection to a known router is open and no dial is under way, a request to connect dials it and a connection from it is accepted.",
  "every router and every history", "interleavings", S+"transport/mod.rs: TransportManager")
p("A request to connect leads to a dial, a lookup or a reported failure",
  "After a subsystem asks for a connection, the router is being dialled or looked up, or the failure is reported to the subsystem.",
  "every router and every history", "interleavings", S+"transport/mod.rs: TransportManager::on_dial_router")
p("Messages to a router are handed over in order and confirmed only then",
  "The messages handed to a router's connections are messages that were to be sent to that router, in the order in which they were to be sent and each at most once; a feedback channel is signalled when its message was handed over and not otherwise.",
  "every history of sends, connections, failures and closings", "histories", S+"tunnel/mod.rs: TunnelManager::send_message, on_connection_established", S+"transport/mod.rs: TransportService")
p("Messages to an unconnected router wait for the connection",
  "The first message to an unconnected router makes it be dialled; messages sent meanwhile are handed over in order when the connection comes up, before later ones, and none is lost while there is room.",
  "every sequence of sends and unrelated events", "interleavings", S+"tunnel/mod.rs: TunnelManager::send_message, on_connection_established")
p("Messages to a connected router are sent",
  "While a connection to a router is open and has room, messages for the router are sent over it.",
  "every router and every history", "histories", S+"tunnel/mod.rs: TunnelManager::on_connection_failure", S+"transport/mod.rs: TransportService::connect")
p("Every message from a peer is dispatched by its type",
  "A received message is routed to its tunnel, given to the network database, or dropped if a peer has no business sending it; tunnel data that was seen before is dropped; no message stops the router.",
  "every message and build profile", "every message", S+"tunnel/mod.rs: TunnelManager::on_message")
p("Every garlic clove is delivered according to its instructions",
  "A clove for a router or for a tunnel of a router is sent to that router, also if that router is this one.",
  "every garlic message", "every set of cloves", S+"tunnel/mod.rs: TunnelManager::on_garlic")
p("A message sent by the router goes to the router it names",
  "A message for the local router is routed locally, one for another router is queued for it unchanged, and a feedback channel is signalled only for a message that was taken over.",
  "every message and table", "every message", S+"tunnel/routing_table.rs: RoutingTable::send_message, send_message_with_feedback")
p("A tunnel build tells the creator what every router decided",
  "A build request passed from hop to hop comes back to the creator. The creator gets the tunnel if and only if every hop had room, was not shutting down and did not use the tunnel id; each hop that agreed then has a tunnel with exactly the ids, next hop and keys the creator has for it, and a hop that refused is unchanged and answered with the bandwidth-reject code.",
  "every number of hops, direction, state of the hops and choice of random values", "compositions of routers", S+"tunnel/hop/pending.rs: PendingTunnel::create_tunnel, try_build_tunnel", S+"tunnel/transit/mod.rs: TransitTunnelManager::handle_short_tunnel_build", S+"tunnel/noise.rs", S+"tunnel/garlic.rs")
p("A tunnel that was built carries messages",
  "The tunnels the hops set up are linked to each other, the layers the creator applies to an outbound message are removed by the hops one by one, and the layers the hops of an inbound tunnel add are removed by the creator.",
  "every built tunnel and message", "compositions of routers", S+"tunnel/hop/outbound.rs", S+"tunnel/hop/inbound.rs", S+"tunnel/transit/participant.rs")
p("A failed build blames the router that failed it",
  "The report of a failed build lists every hop with its own answer.",
  "every build and every set of answers", "every combination of answers", S+"tunnel/hop/pending.rs: PendingTunnel::try_build_tunnel")
p("Transit tunnels stay reachable until they end",
  "As long as a transit tunnel runs, messages for its id reach it, and when it has ended the id is free again.",
  "every history of requests, endings and uses of the routing table", "histories", S+"tunnel/transit/mod.rs: TransitTunnelManager", S+"tunnel/routing_table.rs: RoutingTable")
p("No message stops the handling of transit tunnels or of builds",
  "Whatever message reaches the transit tunnel manager or a pending build is handled without a panic.",
  "every message", "every message", S+"tunnel/transit/mod.rs: TransitTunnelManager::poll", S+"tunnel/hop/pending.rs: PendingTunnel::try_build_tunnel")
p("The options of a build reply are empty",
  "The reply record a hop returns starts with an empty options mapping, as the specification of short build replies says.",
  "every request", "every request", S+"tunnel/transit/mod.rs: TransitTunnelManager::handle_short_tunnel_build")
p("Expired and repeated build requests are refused",
  "A request whose expiration has passed, or which was accepted before, is not accepted.",
  "every request and time", "time and history", S+"tunnel/transit/mod.rs: TransitTunnelManager::handle_short_tunnel_build")
p("Profile bookkeeping never fails",
  "Loading, adding, recording, ranking and looking up routers never aborts, and a lookup returns exactly the routers of the bucket that pass the filter, in every history in which nothing but dials is recorded about routers never seen.",
  "every history of additions, events and maintenance", "history-dependent; expectations scattered over the code", S+"profile.rs: ProfileStorage::{new,add_router,get_router_ids}, ProfileManager::run")
p("A router's profile is what was recorded about it",
  "At any time the profile of a router holds exactly the events recorded about it, whatever was recorded about others and however maintenance interleaves.",
  "every history", "history-dependent", S+"profile.rs: ProfileStorage")
p("A tunnel is established exactly if every hop agrees",
  "The creator considers a tunnel established exactly if the reply has the right size and every hop's authenticated answer in it is yes; a failed build names a hop that refused or answered badly.",
  "every reply message, also forged", "every message", S+"tunnel/hop/pending.rs: PendingTunnel::try_build_tunnel")
p("Long build requests are answered truthfully",
  "A router answers a long build request with the decision it took, in the record made for it, readable by the requester, and changes no other record; it registers the tunnel exactly if it says yes.",
  "every request and router state", "every request", S+"tunnel/transit/mod.rs: TransitTunnelManager::handle_variable_tunnel_build")
p("Backups are complete",
  "A backup contains every router with a profile, with what was recorded about it and with the router info received last since the previous backup.",
  "every history", "history-dependent", S+"profile.rs: ProfileStorage::backup")
p("Hop selection finds hops when there are any",
  "In secure mode, selecting n hops succeeds exactly if reachable routers below the participation limit are known in n different /16 subnets, whatever is drawn; it never panics; and routers that refuse or fail are used only if the others do not suffice.",
  "every store of routers, all counts and random draws", "random selection over every router set", S+"tunnel/pool/selector.rs: ExploratorySelector::select_hops, ClientSelector::select_hops")
p("Garlic session establishment agrees on keys",
  "If one destination opens a session with another, the other reads the request, learns the sender's static key, and for every reply the sender reads, both sides hold the same keys for both directions: the reply's payload and the first message under the new keys are delivered, whichever of any number of replies was read.",
  "every pair of keys, payloads, number and choice of replies", "ranges over all keys, payloads and reply choices", S+"destination/session/context.rs: KeyContext::{create_outbound_session,create_inbound_session}", S+"destination/session/inbound.rs: InboundSession::{create_new_session_reply,handle_existing_session}", S+"destination/session/outbound.rs: OutboundSession::{generate_new_session_reply_tags,handle_new_session_reply}")
p("Garlic messages are readable in any order, each once",
  "Every message a destination sends in an established garlic session can be read by its peer, in whatever order the messages arrive and whichever of them are lost, and none is read twice; damaged messages are refused and do not disturb the session.",
  "every order of delivery, loss, duplication and damage", "ranges over all delivery orders and loss patterns", S+"destination/session/session.rs: Session::{decrypt,encrypt}", S+"destination/session/mod.rs: SessionManager::{encrypt,decrypt}")
p("Requests for garlic sessions are not replayable",
  "A request for a garlic session that was accepted before is refused when it is received again: its contents are delivered once.",
  "every request and history", "history-dependent", S+"destination/session/mod.rs: SessionManager::decrypt", S+"destination/session/context.rs: KeyContext::create_inbound_session")
p("Bad or late messages do not disable a destination",
  "After a damaged, forged or late message the local destination can still open a session with, and send to, every remote destination.",
  "every message and history", "every history and every message, also forged", S+"destination/session/session.rs: PendingSession::{advance_inbound,advance_outbound}", S+"destination/session/mod.rs: SessionManager::{encrypt,decrypt,maintain}")
p("Received garlic messages do not abort the program",
  "No garlic message, whatever its content and whatever happened before, aborts the program.",
  "every message and history", "ranges over every message in every reachable state", S+"destination/session/mod.rs: SessionManager::decrypt", S+"destination/session/session.rs")
p("Sessions are established whoever opens them",
  "If two destinations send messages to each other, every message is delivered and a garlic session is established after a bounded number of messages, also if both begin at the same time.",
  "every interleaving of sends and arrivals", "ranges over schedules of two parties", S+"destination/session/mod.rs: SessionManager::{encrypt,decrypt}", S+"destination/session/session.rs: PendingSession")
p("A destination that restarts can be reached",
  "If a destination loses its garlic sessions and asks its peer for a new one, the peer's next messages can be read by it.",
  "every session state", "history of two parties", S+"destination/session/mod.rs: SessionManager::{encrypt,decrypt}")
p("Peers get the newest lease set",
  "After a new lease set is registered, it is sent in every established garlic session until the peer acknowledges it.",
  "every order of registrations, messages and acknowledgments", "history-dependent", S+"destination/session/mod.rs: SessionManager::{register_lease_set,publish_local_lease_set,encrypt,decrypt}")
p("Sessions in use are kept",
  "A garlic session is dropped only if it was used neither for sending for eight nor for receiving for ten minutes, and its owner is told.",
  "every history and time", "time and history", S+"destination/session/mod.rs: SessionManager::maintain")
p("Every reply to a session request is readable",
  "However many replies a destination gives to a request for a garlic session before the requester sends again, the requester can read each.",
  "every number of replies", "unbounded number of messages", S+"destination/session/outbound.rs: OutboundSession::generate_new_session_reply_tags", S+"destination/session/inbound.rs: InboundSession::create_new_session_reply")
p("Unreachable remotes are given up after three failed queries in a row",
  "A routing path handle that has a way to send but no usable lease asks for the remote's lease set, has at most one such query out, and reports the remote as unreachable exactly when three queries in a row have failed; a successful query starts the count anew.",
  "every history of path requests, new-path requests, tunnel events and query results of a handle",
  "the count depends on the whole history of results",
  S+"destination/routing_path.rs: RoutingPathHandle::poll, select_inbound_tunnel")
p("Lease set queries are shared and answered",
  "However many handles of a destination ask for a remote's lease set, there is at most one query for it at a time, and every handle that asked before news about the remote arrived is told by that news whether the query succeeded, once and not before.",
  "every history of requests, tunnel events and results",
  "interleavings of requests and results",
  S+"destination/routing_path.rs: RoutingPathManager::poll_next, register_leases")
p("What is kept of a remote's leases is bounded",
  "For each remote destination the leases kept are its announced, unexpired ones, each once; storing the same lease set again does not make the router keep more.",
  "every history of lease set stores",
  "growth without bound over any history",
  S+"destination/routing_path.rs: RoutingPathManager::register_leases")
p("Maintenance of garlic sessions forgets what is too old and nothing else",
  "Maintenance of the garlic session manager stops watching exactly for the tags of sessions in which nothing was received for ten minutes and no lease set was sent for eight, of tag sets that were replaced at least three minutes ago, and of replies to requests of sessions established at least three minutes ago; all other tags stay watched for and all other keys of sessions are kept.",
  "every history of calls with a clock that does not go back, every time of maintenance",
  "a tag forgotten too early loses messages in flight, one kept too long leaks memory and weakens forward secrecy; which tags are affected depends on the whole history of ratchets",
  S+"destination/session/mod.rs: SessionManager", S+"destination/session/session.rs: Session::maintain")
p("Messages that arrive through a pool's tunnels reach whoever waits for them",
  "A reply that arrives through a tunnel pool's inbound tunnels is given to the listener that was registered for its message id, or for its garlic tag, whatever happened in between; a listener gets at most one message, and only one meant for it. Other garlic and network database messages go to the pool's owner, in order. No message makes the router fail.",
  "every history of registrations and messages, every message",
  "the tables of listeners, tags and ids depend on the whole history, and the messages come from the network",
  S+"tunnel/pool/context.rs: TunnelPoolContextHandle, TunnelPoolContext")
p("A pool does not have more tunnels than configured",
  "With the tunnels that are about to expire aside, a tunnel pool never has more outbound or inbound tunnels, ready or being built, than its owner asked for.",
  "every history of polls: build results, expirations, timers, failures of hop selection",
  "over-building shows up only after particular orders of builds and expirations, minutes apart",
  S+"tunnel/pool/mod.rs: TunnelPool::poll, maintain_pool, calculate_outbound_build_count, calculate_inbound_build_count")
p("A pool is refilled",
  "As soon as a build has failed, and at least every ten seconds, a pool that finds hops starts as many builds as it takes to have the configured number of tunnels, with those about to expire replaced in time.",
  "every history of polls",
  "liveness over any history of failures and expirations",
  S+"tunnel/pool/mod.rs: TunnelPool::poll, maintain_pool", S+"tunnel/pool/timer.rs: TunnelTimer")
p("The owner of a pool knows its tunnels",
  "The owner of a tunnel pool is told of the tunnels that are built, about to expire and expired, in order; an owner that has read all events knows exactly which tunnels the pool has and which of them are about to expire.",
  "every history of polls and reads, every interleaving",
  "depends on how the owner's reads interleave with the pool",
  S+"tunnel/pool/mod.rs: TunnelPool::poll", S+"tunnel/pool/context.rs: register_*", S+"tunnel/pool/handle.rs: TunnelPoolEvent")
p("A pool's ids in the routing table are those of its tunnels",
  "While a pool runs, the ids it occupies in the routing table are exactly those of its inbound tunnels, built or being built, and its selector offers exactly its tunnels; when the pool is shut down it leaves nothing behind.",
  "every history of polls",
  "leaks are only visible after long histories of failures and expirations",
  S+"tunnel/pool/mod.rs: TunnelPool::poll, maintain_pool", S+"tunnel/pool/selector.rs: ExploratorySelector, ClientSelector")
p("Tunnel tests end while the tested tunnels exist",
  "The result of a tunnel test is never handled after one of the tunnels that were tested is gone, which would trip a debug assertion, unless the pool is polled late.",
  "every history of polls in which nothing is late by more than fifteen seconds",
  "a race between three timers that are minutes long",
  S+"tunnel/pool/mod.rs: TunnelPool::poll, maintain_pool", S+"tunnel/pool/selector.rs: register_tunnel_test_success, register_tunnel_test_failure")
p("A pool runs until its owner shuts it down",
  "A tunnel pool ends only when its owner shuts it down, and tells its owner that it has ended.",
  "every history of polls",
  "depends on the whole history and on what arrives through the tunnels",
  S+"tunnel/pool/mod.rs: TunnelPool::poll", "emissary-util/src/runtime/tokio.rs: TokioJoinSet", S+"tunnel/hop/inbound.rs: InboundTunnel")
p("Every network database query is settled exactly once and in time",
  "Whoever asks the network database for a lease set or a router info is told the outcome exactly once: the record, an error, or a cancellation. The outcome is known at the first poll at least 21.6 seconds after the request.",
  "every history of requests, messages, tunnel and connection events, timers and clock movements",
  "a caller that waits forever, or is answered twice, shows only in particular interleavings",
  S+"netdb/mod.rs: NetDb::query_lease_set, query_router_info, on_database_store, on_database_search_reply, handle_timeout, poll", S+"netdb/query.rs: Query")
p("A query ends only with its own outcome",
  "A network database query is not abandoned, with those who wait for it cancelled, because of a message that does not answer it or because of another query.",
  "every state and every event",
  "needs two queries and a message of a third party to meet at one key",
  S+"netdb/mod.rs: NetDb::on_database_store, on_database_search_reply, query_lease_set, query_router_info")
p("A lease set query is answered with the lease set asked for",
  "A successful answer to a query for the lease set of a destination is a lease set of that destination that has not expired, and was sent in answer to the query.",
  "every history, every message an attacker may send",
  "the messages come from anybody",
  S+"netdb/mod.rs: NetDb::on_database_store", S+"destination/mod.rs: Destination::poll_next")
p("No floodfill is asked twice for the same query",
  "While a query waits for its outcome no floodfill router is sent more than one lookup for it.",
  "every history from the start of the query",
  "depends on which routers become known, and on the order of replies and timeouts",
  S+"netdb/query.rs: Query::handle_search_reply, handle_timeout", S+"netdb/mod.rs: NetDb::handle_timeout")
p("The network database dials a router once and loses no message to it",
  "Messages of the network database to a router it is not connected to wait, in order, for one dial; when the connection is up all that have not expired are sent once. Nothing is handed to the transport for a router that is not connected.",
  "every history of messages and connection events",
  "interleavings of sends with connection events are unbounded",
  S+"netdb/mod.rs: NetDb::send_message, on_connection_established, on_connection_closed, on_connection_failure, on_lease_set_lookup, on_router_info_lookup")
p("A floodfill answers every lookup once",
  "A floodfill answers each lookup exactly once, by the route the asker names: with the record if it has it, else with at most five routers it knows, none of which the asker excluded. Other routers answer no lookups.",
  "every state, lookup, route and list of excluded routers",
  "depends on all stored records and on everything the tables may hold",
  S+"netdb/mod.rs: NetDb::on_lease_set_lookup, on_router_info_lookup, on_router_exploration, on_message")
p("A floodfill serves the lease sets stored with it while they are valid",
  "A valid lease set stored with a floodfill, under the key of its destination, is what lookups for that destination get until it expires or a newer one replaces it; expired lease sets are removed.",
  "every history after the store",
  "needs hours of history, and messages of third parties",
  S+"netdb/mod.rs: NetDb::on_lease_set_store, on_lease_set_lookup, maintain_netdb", S+"primitives/lease_set.rs: LeaseSet2::is_expired, expires")
p("A floodfill serves current router infos",
  "A floodfill stores a router info only under the key of its router, if it is of this network and recent, and does not serve it when it has become old.",
  "every history",
  "staleness shows after days",
  S+"netdb/mod.rs: NetDb::on_router_info_store, on_router_info_lookup, maintain_netdb")
p("Router infos are checked before they are believed",
  "Every router info the network database passes on to the router's profiles is of this network, not of this router itself, and not older than an hour.",
  "every state and message",
  "the messages come from anybody",
  S+"netdb/mod.rs: NetDb::on_router_info_store, on_database_store")
p("Whoever waits for the network database to be ready is told once",
  "Each request to be told when the network database is ready is answered exactly once, at the latest when there is both an outbound and an inbound tunnel.",
  "every history of requests and of tunnels built and expired",
  "interleavings of requests with tunnel events",
  S+"netdb/mod.rs: NetDb::poll", S+"netdb/handle.rs: NetDbHandle::wait_until_ready")
p("Lookups are spread evenly over live tunnels",
  "Every lookup uses an outbound and an inbound tunnel that were built and have not been reported expired, and of as many lookups in a row as there are tunnels each tunnel carries one.",
  "every history of tunnels and lookups",
  "fairness is about all lengths of history",
  S+"netdb/query.rs: TunnelSelector::next_tunnel, add_tunnel, remove_tunnel", S+"netdb/mod.rs: NetDb::poll")
p("Routers that know few others explore more often",
  "A router that is not a floodfill explores the network at regular intervals, the shorter the fewer routers it knows, and fetches the router infos of those routers a reply names that it does not know yet, never its own.",
  "every random number, every number of known routers, every reply",
  "intervals are minutes long and random",
  S+"netdb/mod.rs: NetDb::explore_routers, on_database_search_reply, poll, EXPLORATION_INTERVAL_LOW_ROUTER_COUNT, EXPLORATION_INTERVAL_HIGH_ROUTER_COUNT")
p("A floodfill is charged with a timeout only if it did not answer in time",
  "A floodfill is charged with a timeout only if it was sent a lookup and did not answer within 1.6 seconds.",
  "every history of queries",
  "needs a second query for the same key while a timer of the first one runs",
  S+"netdb/mod.rs: NetDb::handle_timeout, poll", S+"netdb/dht.rs: Dht::register_lookup_timeout")
p("A floodfill acknowledges and floods what it accepts, and only that",
  "A floodfill that accepts a record and was asked for a delivery status sends the status to the router named and the record once to each of the three closest floodfills; a record it refuses, or that asks for no status, causes no messages, and other routers flood nothing.",
  "every state and store",
  "depends on the whole contents of the table",
  S+"netdb/mod.rs: NetDb::on_lease_set_store, on_router_info_store")
p("One query per remote, one outcome per query",
  "A destination runs at most one lease set query per remote, exactly while it reports the query as pending. Asking reports found, not found or pending according to whether a valid lease set is known. A query that the database does not take is tried three times; its result, or the failure, is reported as exactly one event, a lease set that was found is stored, and nothing else changes what the user is told.",
  "every history of requests, sends, received messages, query results and time",
  "depends on how queries overlap with other events for the same remote",
  S+"destination/mod.rs: Destination::query_lease_set, poll_next")
p("Messages go to leases that were announced for their remote",
  "A destination sends a message only to a router and tunnel that were announced for the remote of the message, by the remote itself or in the answer to a query for it. A message for a remote without lease set is refused, one for a remote whose lease set has expired is kept and a query is running, and otherwise it leaves at once with eight seconds to live. The lease set of a remote is always the last one received or found, and it is never forgotten.",
  "every history and message",
  "a history of any length may have replaced the lease sets",
  S+"destination/mod.rs: Destination::send_message_inner, decrypt_message, poll_next")
p("Messages that wait for a lease set are kept and sent when it is found",
  "Every message that a destination takes has left, was refused by the tunnel pool, or waits; none is duplicated. When a query finds a valid lease set all messages that wait leave in the order in which they were handed over. Messages for a remote leave in the order in which they were handed over, and as soon as the remote is reachable.",
  "every history",
  "needs all interleavings of sends, expirations, queries and received lease sets",
  S+"destination/mod.rs: Destination::send_message_inner, poll_next")
p("A lease set is only replaced by a newer one of the same remote",
  "The lease set of a remote is only replaced by one that the remote signed, that is valid and that is newer than the one it replaces.",
  "every state and message",
  "an attacker chooses the message",
  S+"destination/mod.rs: Destination::decrypt_message, poll_next")
p("A routing path works until its lease expires",
  "A message over a routing path whose inbound tunnel's lease has not expired is sent to that tunnel through the path's outbound tunnel, even if the remote has replaced its lease set.",
  "every history of replaced lease sets",
  "a history may replace the lease set any number of times",
  S+"destination/mod.rs: Destination::send_message_inner, decrypt_message, poll_next")
p("The user gets the data messages of a garlic message in order",
  "For a garlic message with data messages in it the user gets one event with the bodies of exactly those messages, in order; other parts never surface, and there is no event without data.",
  "every state and message",
  "ranges over all contents of a message",
  S+"destination/mod.rs: Destination::decrypt_message")
p("A routing path that asks for a lease set is answered",
  "When a routing path asks for a lease set of a remote, it is answered: at once, or when a query that was made for it ends.",
  "every history",
  "depends on the state of the remote's lease set and on running queries",
  S+"destination/mod.rs: Destination::poll_next", S+"destination/routing_path.rs: RoutingPathManager::register_leases")
p("An unpublished destination stays unpublished",
  "A destination that is created unpublished never sends its lease set to a floodfill, never asks one for it and makes no query for the sake of publishing.",
  "every history of tunnels, lease sets, messages and answers",
  "a leak needs only one history in which a message is sent",
  S+"destination/lease_set.rs: LeaseSetManager")
p("A lease set is published to the closest floodfill with the current content",
  "A lease set that is published is the last one that was registered; it goes to the closest known floodfill to which it was not sent before, sealed for that floodfill, and the answer comes back over a live tunnel of the destination. It is checked with the closest floodfill that was neither asked nor sent the lease set.",
  "every state, set of floodfills and time",
  "ranges over all sets of floodfills and keys",
  S+"destination/lease_set.rs: LeaseSetManager::create_database_store, create_database_lookup, poll")
p("Publishing is paced",
  "Without new tunnels a lease set is published at most every 25 seconds, nobody is asked for it within ten seconds after it was published, and there are at least two seconds between two lookups.",
  "every history without new inbound tunnels, and every pair of messages in it",
  "ranges over all interleavings of timers, answers and refusals",
  S+"destination/lease_set.rs: LeaseSetManager::poll")
p("Publishing stops when the lease set is seen, and only then",
  "When the published lease set comes back from a floodfill, nothing more is sent until a tunnel is built; nothing but the published lease set stops it.",
  "every state and message",
  "an attacker chooses the message",
  S+"destination/lease_set.rs: LeaseSetManager::register_database_store", S+"destination/mod.rs: Destination::decrypt_message")
p("Publishing never gets stuck and never spins",
  "Every poll of the publisher ends after a bounded number of steps and leaves it waiting for an event or for a timer at most 30 seconds ahead. A lease set that is not seen within 15 seconds is published again.",
  "every state, time and sequence of answers",
  "liveness over all states",
  S+"destination/lease_set.rs: LeaseSetManager::poll")
p("A destination outlives a moment without floodfills",
  "That the network database has no floodfill at the moment does not end a destination; it tries again.",
  "every state and answer",
  "needs the answer of another task at the worst moment",
  S+"destination/lease_set.rs: LeaseSetManager::poll", S+"netdb/mod.rs: NetDb::get_closest_floodfills")
p("Messages of strangers do not choose where a lease set is published",
  "To whom a lease set is published does not depend on messages of routers that were not asked, and only floodfills are sent lease sets.",
  "every state and message",
  "an attacker chooses the message",
  S+"destination/lease_set.rs: LeaseSetManager::register_database_search_reply")
p("A SAM client gets what it was sent, in order and complete",
  "The bytes that a SAM client receives are the messages that were sent to it, one after the other in the order of sending. While its socket is open nothing is lost, and as soon as the stream takes what it is given everything has been written.",
  "every sequence of messages, arriving segments and polls, and every amount that the stream takes",
  "depends on how many bytes the stream takes at each write",
  S+"sam/socket.rs: SamSocket::send_message, SamSocket::poll_next")
p("The commands of a SAM client are the lines that it sent",
  "However a client's bytes are cut into segments, the router sees one command for each line that is a command, in order, and no other command.",
  "every sequence of lines, every way to cut them into segments and every schedule of polls",
  "TCP chooses the segments",
  S+"sam/socket.rs: SamSocket::poll_next")
p("A SAM command means what it says",
  "A command with options is understood with exactly the options that the client wrote, each with its value, the last one if an option is given twice; or it is refused. Values may be in quotes.",
  "every command and every list of options",
  "options, values and their order are arbitrary",
  S+"sam/parser.rs: SamCommand::parse, parse_key_value_pairs, parse_value")
p("SAM hosts: what a client connects to, and no command crashes the router",
  "The destination of a connection is read as the id, the name or the destination that the client wrote, and as nothing else. No command, however malformed, stops the router.",
  "every text",
  "the text is arbitrary, and the code slices it at computed positions",
  S+"sam/parser.rs: SamCommand::try_from")
p("SAM datagrams: what is sent where, and no datagram crashes the router",
  "A datagram that a client hands to the router is taken for the session, the destination and the data that it names. A malformed datagram is ignored.",
  "every datagram",
  "anybody can send any datagram to the port",
  S+"sam/parser.rs: Datagram::parse", S+"sam/mod.rs: SamServer::poll")
p("No two SAM sessions share a name or a destination",
  "At every moment the sessions of the SAM server, whether in use or still waiting for tunnels, have distinct names and distinct destinations. A client that asks for a name or a destination in use is told so and gets no session.",
  "every sequence of commands, tunnel events and session ends",
  "depends on the whole history of sessions that were made, failed and ended",
  S+"sam/mod.rs: SamServer::poll")
p("A SAM name and destination can be used again after their session",
  "A client can make a session with a name and a destination that nobody uses: they are new, or the session that used them is gone.",
  "every history of the server",
  "depends on the whole history of sessions that were made, failed and ended",
  S+"sam/mod.rs: SamServer::poll")
p("Every SAM command is answered or passed to its session",
  "A command for streams is passed to the session it names; if that is not possible the client gets an answer. Every answer is a line.",
  "every history of the server and every command",
  "depends on the state of the session and its channel when the command arrives",
  S+"sam/mod.rs: SamServer::poll, SessionContext::send_command")
p("One client cannot bring the SAM server down",
  "Whatever a client or a process that reaches the datagram port sends, the server goes on and the sessions of other clients stay.",
  "every history of the server, every command and every datagram",
  "anybody can send any datagram to the port",
  S+"sam/mod.rs: SamServer::poll", "emissary-util/src/runtime/tokio.rs: TokioJoinSet::poll_next")
p("A SAM session is started with tunnels",
  "A session is not reported as started before it has an inbound and an outbound tunnel. It is started as soon as it has both, with exactly the tunnels that were built and have not expired. It fails only if the tunnel pool goes away.",
  "every sequence of tunnel events",
  "tunnels are built and expire in any order",
  S+"sam/pending/session.rs: PendingSamSession::run")
p("Datagrams for SAM clients are written in order",
  "Datagrams that sessions have for their clients are written to the datagram socket in order, each once and none is lost.",
  "every schedule of datagrams and writes",
  "depends on when the socket takes datagrams",
  S+"sam/mod.rs: SamServer::poll")
p("A SAM client that looks up a name gets one answer",
  "For each lookup the client gets one line with the value, or that the name is not valid or not known: at once if nothing has to be looked for, otherwise when the address book or the network database has answered. Never more than one.",
  "every history of a session and every name",
  "lookups, queries and their results can come in any order",
  S+"sam/session.rs: SamSession::on_naming_lookup, on_lease_set_found, on_lease_set_not_found", S+"destination/mod.rs: Destination::query_lease_set")
p("A SAM session sends datagrams in order",
  "Datagrams for a destination are sent in the order in which the client gave them, each once. Those for which there is no lease set yet wait and are sent when it is found. Sessions for streams send none.",
  "every history of a session, every destination",
  "depends on when lease sets are found",
  S+"sam/session.rs: SamSession::on_send_datagram, on_lease_set_found")
p("A SAM client that wants a stream gets it or an answer",
  "A client that connects is given to a stream when the lease set of the destination is there, and is told with a line if it is not found. Each socket is dealt with once and none is dropped without an answer.",
  "every history of a session, every socket",
  "depends on the order of connects, query results and streams that are opened and rejected",
  S+"sam/session.rs: SamSession::on_stream_connect, create_outbound_stream, on_lease_set_found, on_lease_set_not_found, poll")
p("A SAM datagram arrives as it was sent, with its true sender",
  "A datagram that one client sends is passed to the port of the other client unchanged, after a line with the destination that sent it and the ports, if it is repliable. Nobody can send in the name of another destination, and no datagram stops a session.",
  "every pair of sessions and every datagram",
  "any bytes can arrive",
  S+"sam/protocol/datagram/mod.rs: DatagramManager::make_datagram, on_datagram", S+"sam/session.rs: SamSession::on_inbound_message")
p("An I2CP payload is read as it was built",
  "Data, ports and protocol of a payload are read as they were given when it was built. What is too short or of an unknown protocol is refused.",
  "every payload, every pair of ports, every byte string",
  "all byte strings",
  S+"i2cp/payload.rs: I2cpPayloadBuilder::build, I2cpPayload::decompress, I2cpParameters::new", S+"protocol.rs: Protocol")
p("Messages of an I2CP client are seen as they were sent",
  "However the bytes of an I2CP client are cut into segments and whenever the router polls the connection, the messages that the router takes from it are those of the complete frames the client has sent, each once and in order; when there is nothing left to read, each of them has been taken; a frame of any size does not end the connection.",
  "every sequence of frames, segmentation of their bytes, and interleaving of arrivals, outgoing messages and polls with any behaviour of the stream when it is written to",
  "the number of segmentations and interleavings is unbounded; a test fixes one of them",
  S+"i2cp/socket.rs I2cpSocket::poll_next", S+"i2cp/socket.rs ReadState")
p("An I2CP client gets its messages in order",
  "What has been written to an I2CP client is a beginning of the messages that were sent to it, one after the other; nothing is lost while the connection is open, and a stream that takes what it is given gets all of it.",
  "every history of messages sent, arrivals and polls, with the stream taking any number of bytes at a time",
  "partial writes and interleavings with reading are unbounded",
  S+"i2cp/socket.rs I2cpSocket::poll_next", S+"i2cp/socket.rs I2cpSocket::send_message")
p("An I2CP client can read what the router sends",
  "Every message that the router builds for an I2CP client has the length that its header says, so that a client that follows the framing finds the message and then whatever was sent after it.",
  "every message, with any content, followed by any bytes",
  "it has to hold for every content and whatever follows; the tests of the builders do not read the messages back",
  S+"i2cp/message/host_reply.rs HostReply::new", S+"i2cp/message/lease_set.rs RequestVariableLeaseSet::new", S+"i2cp/message/payload.rs MessagePayload::new", S+"i2cp/message/session_status.rs SessionStatus::new", S+"i2cp/message/set_date.rs SetDate::new", S+"i2cp/message/bandwidth.rs BandwidthLimits::new")
p("The router understands an I2CP message as the client meant it",
  "Lookups, messages and lease sets of an I2CP client are understood with the values that the client gave; a session is only made for a destination whose key signed the request; a lease set is kept byte for byte and signed for the destination that it is kept for, with keys that belong to it; no message ends the connection.",
  "every value of every field and every byte string",
  "the input is any byte string from a client",
  S+"i2cp/message/mod.rs Message::parse", S+"i2cp/message/mod.rs Message::parse_create_session", S+"i2cp/message/mod.rs Message::parse_create_leaseset2", S+"i2cp/message/mod.rs Message::parse_send_message_expires")
p("An I2CP client's messages to a destination are sent in order, once, and not lost",
  "Messages that an I2CP client sends to a destination are given to the network in the order in which the client sent them and none is sent twice. A message for a destination whose lease set is known is sent at once; otherwise it waits for the lease set and is sent when that is found. A message is not dropped without the client being told.",
  "every sequence of client messages, query results and destination events",
  "which messages wait depends on the interleaving of lookups, sends and query results for the same destination",
  S+"i2cp/session.rs I2cpSession::on_message SendMessageExpires", S+"i2cp/session.rs I2cpSession::poll", S+"destination/mod.rs Destination::query_lease_set")
p("An I2CP host lookup is answered exactly once",
  "Each HostLookup of an I2CP client gets one HostReply: at once if the destination is known, otherwise when the address book or the network database answers, with a failure if it is not found.",
  "every sequence of lookups, sends and results",
  "lookups, messages and the router's own queries share one table of queries",
  S+"i2cp/session.rs I2cpSession::on_message HostLookup", S+"i2cp/session.rs I2cpSession::poll")
p("An I2CP client gets the messages for its destination in order with increasing ids",
  "The messages that arrive for the destination of an I2CP session reach the client, each once, in order of arrival, and their message ids count up from 0 (modulo 2^32).",
  "every sequence of events of a session that has not ended",
  "the ids depend on the whole history of the session",
  S+"i2cp/session.rs I2cpSession::send_payload_message", S+"i2cp/session.rs I2cpSession::poll")
p("An I2CP session does what the client says about its lease set, its keys and its end",
  "A lease set that the client creates is published and the messages for it are decrypted with the private keys that came with it. A lease set is published to the network database unless the client asks for the opposite. A session that the client destroys ends. A second CreateSession is refused.",
  "every state of an active session and every message",
  "keys and options are given once and used much later",
  S+"i2cp/session.rs I2cpSession::new", S+"i2cp/session.rs I2cpSession::on_message")
p("An I2CP session starts with the tunnels that its client was asked to sign for",
  "After CreateSession the client is asked once for a lease set, when the tunnels that its options ask for are up, with the leases of exactly those inbound tunnels. The session starts when the client answers, with these tunnels. A lease set that was not asked for, options without tunnels, lookups and DestroySession are handled without harm.",
  "every sequence of client messages and tunnel pool events before the session is active",
  "tunnels are built and expire in any order while the client talks to the router",
  S+"i2cp/pending.rs PendingI2cpSession::on_message", S+"i2cp/pending.rs PendingI2cpSession::poll", S+"tunnel/pool/mod.rs TunnelPoolConfig::from")
p("I2CP sessions have ids of their own and do not disturb each other",
  "The server takes connections that begin with the protocol byte, gives each session an id that no other session has, and what one client sends changes nothing for other clients; in particular it does not end the server.",
  "every sequence of connections and client messages",
  "needs all interleavings of several clients and long histories",
  S+"i2cp/mod.rs I2cpServer::poll", S+"i2cp/mod.rs I2cpServer::next_session_id", S+"i2cp/session.rs I2cpSession::new", "emissary-util/src/runtime/tokio.rs TokioJoinSet::poll_next")
p("Shuffling neither loses nor repeats anything and can give every order",
  "The shuffle used to pick routers, leases and hosts returns a rearrangement of its input, whatever the random numbers, and every arrangement can come out.",
  "every list and every sequence of random numbers",
  "ranges over all lists and all random draws",
  S+"util/mod.rs shuffle")
p("Addresses that are not reachable from the internet are not taken for public ones",
  "An IPv4 address is taken for a public one exactly when it lies in none of the blocks reserved for private networks, local links, loopback, documentation, benchmarks, carrier networks, multicast and future use.",
  "every IPv4 address",
  "2^32 addresses and many boundaries",
  S+"util/mod.rs is_global")
p("Reading and writing a whole buffer handles any way the socket splits it",
  "Reading n bytes gives the next n bytes of the peer, in order, however the socket delivers them, and leaves the rest; it fails only if the peer closes, the socket fails or ten seconds pass. Writing a buffer passes exactly its bytes to the socket, each once, in order.",
  "every split of the stream into parts and every schedule of polls",
  "every partition of the data and every timing must be considered",
  S+"util/mod.rs ReadExact, WriteAll")
p("The duplicate filter recognises every repeat within its period and little else",
  "A message that was inserted is recognised when it is inserted again before two decays have passed, it is forgotten after that, and a message that was not inserted is let through.",
  "every sequence of inserts and decays",
  "depends on all messages seen before and on the hashes of all of them",
  S+"bloom.rs DecayingBloomFilter")
p("Every holder of a shutdown handle is told once, and its answer counts",
  "A subsystem that holds a shutdown handle finds the notice when it looks after the shutdown was asked for, once. What it answers, before or after it has looked, ends the wait for it. A handle that is given out late is told too.",
  "every sequence of handles, requests, polls, answers and drops",
  "any interleaving of the router and its subsystems",
  S+"shutdown.rs ShutdownContext, ShutdownHandle")
p("The numbers in a router status are those of the moment",
  "A status event is made each time the update timer fires, with the number of transit tunnels and connected routers last reported and the sums of the bandwidth and tunnel counts reported so far, modulo 2^64; status events arrive in order.",
  "every sequence of reports, timers and reads",
  "numbers depend on the whole history of all subsystems",
  S+"events.rs EventHandle, EventManager::poll")
p("Every destination that starts is reported once",
  "The status events tell the program of every client and server destination that was started, each once, in order.",
  "every sequence of starts, timers and reads",
  "losses depend on how far the reader is behind",
  S+"events.rs EventManager::poll", S+"events.rs EventHandle::client_destination_started")
p("The router ends when it is asked to and says so",
  "The router runs until it is asked to shut down or its transports end. Asked once, it ends when its transit manager is done; asked twice, it ends at once. The program that embeds it is told once that the router is shutting down and once that it has shut down.",
  "every sequence of requests, polls and answers",
  "any interleaving of requests with the subsystems",
  S+"router/mod.rs Router::shutdown", S+"router/mod.rs Router::poll", S+"events.rs EventManager::shutdown")
p("A graceful shutdown lets the transit tunnels run out",
  "After the shutdown is asked for the transit manager goes on serving its tunnels and is done exactly when the last one has ended, right away if it has none; without a request it is never done.",
  "every history of build requests, tunnel ends and the shutdown request",
  "depends on when each of many tunnels ends",
  S+"tunnel/transit/mod.rs TransitTunnelManager::poll")
p("A host name has the address of the first list line about it",
  "After the router was started and one or more host lists have arrived, looking a name up in the address book gives the address of the first line, over all lists in the order of their arrival, that names it; later lines and later lists cannot replace it, a name in no list is unknown, and the order in which the table of names is written out does not matter. A line is read as the text before the first `=` and the text after it up to `#!`, both without surrounding white space.",
  "all sequences of lists of arbitrary text, all orders of writing out the table, all names, all previous files",
  "The texts, the number of lists and the hash order are unbounded; tests look at one or two lists.",
  "emissary-cli/src/address_book.rs: AddressBookManager::parse_and_merge, AddressBookHandle::resolve")
p("Known host names survive restarts and crashes",
  "A name the address book knew is still known after the router was stopped and started again, wherever it was stopped, and has the same address. (Violated: the first list of a new run replaces the whole book by its own names; stopping before the file is written leaves no names; stopping inside an address leaves a shortened address that is handed out.)",
  "all histories of starts, lists and stops at any point of writing the file",
  "Needs every crash point of every write and every previous content.",
  "emissary-cli/src/address_book.rs: AddressBookManager::parse_and_merge, AddressBookManager::run, AddressBookHandle::resolve")
p("The HTTP proxy sends exactly the sanitised request",
  "If the HTTP proxy sends a browser's request on, the destination reads one request with the same method and target, HTTP/1.1, and for each header of the browser, in order, its promised form and nothing else: User-Agent becomes one constant, Accept-Encoding keeps its value, Connection becomes upgrade or close, Referer is kept only if it is text with the host's name in it, other Accept headers and X-Requested-With, Via, From, Forwarded, DNT, X-Forwarded and Proxy- headers are dropped, all others are unchanged; then the bytes read after the head. No header value can add a header or end the head early.",
  "all requests that the HTTP parser accepts, with any number of headers, names, values and bodies",
  "Header lists and values are unbounded; injection needs every value.",
  "emissary-cli/src/proxy/http/mod.rs: HttpProxy::parse_request")
p("Destinations cannot tell browsers apart by their headers",
  "Requests of two browsers for the same page of the same site, which differ only in headers about the browser, the user or other pages, reach the destination as the same bytes. (Holds for the headers the proxy knows. Violated: every header it does not know is forwarded unchanged, such as Sec-CH-UA or X-Real-IP; a Referer from another site is forwarded if it has the host's name anywhere in it; a request without User-Agent stays without.)",
  "all pairs of requests related in this way",
  "It is a relation between two runs over all inputs.",
  "emissary-cli/src/proxy/http/mod.rs: HttpProxy::parse_request, ILLEGAL")
p("The HTTP proxy serves exactly GET and POST requests for .i2p hosts",
  "A request is sent on exactly if its method is GET or POST, it has a target, and the first Host header is UTF-8 and ends in .i2p; the stream is opened to this host without a leading www., never to anything that does not end in .i2p. (Violated for hosts with a port: Host: name.i2p:80 is refused.)",
  "all requests that the HTTP parser accepts",
  "The host and the position of the header are arbitrary.",
  "emissary-cli/src/proxy/http/mod.rs: HttpProxy::parse_request, HttpProxy::on_request")
p("The HTTP proxy sends the whole body of a request",
  "The destination receives the body the browser sent. (Only a beginning of it: violated, since bytes which are not in the read that completes the head are never sent, nothing after the first 8192 bytes is sent, and a head longer than that is refused.)",
  "all requests and all sizes of the reads from the browser's connection",
  "Depends on how the network splits the data.",
  "emissary-cli/src/proxy/http/mod.rs: HttpProxy::read_request, HttpProxy::on_request")
p("Reseed files are read exactly as the SU3 format says",
  "Every file of the SU3 format (magic, kinds, lengths, padding, version, signer, content, signature, anything behind it) is read as its parts, and nothing that is not such a file is read.",
  "all documents and all byte strings, with and without debug assertions",
  "The parts have arbitrary contents and lengths.",
  "emissary-util/src/su3.rs: Su3::parse_inner, SignatureKind, FileKind, ContentKind")
p("Only routers from properly signed reseed files are used",
  "Routers are taken from a reseed file only if it is reseed data and carries a valid signature of a known signer over everything before the signature; a genuine signature is accepted. (The kind is checked. Violated: the outcome does not depend on the signature, the signer or whether checking was asked for; and a genuine signature is reported as bad, since the wrong bytes are checked.)",
  "all files, keys, signature schemes and archives",
  "Ranges over all forgeries.",
  "emissary-util/src/su3.rs: Su3::parse_reseed; emissary-util/src/reseeder.rs: Reseeder::reseed_inner")
p("No reseed file can crash the router",
  "Whatever a reseed server sends, parsing it returns. (Violated: an archive entry that the zip library cannot open ends the program, and so does, with debug assertions, a version shorter than 16 bytes; nothing else does.)",
  "all byte strings a server can send and all archives",
  "Every malformed file has to be considered.",
  "emissary-util/src/su3.rs: Su3::parse_reseed, Su3::parse_inner")
p("Reseeding ends after at most five different servers",
  "Reseeding asks different servers, at most five, takes the routers of the first usable answer and otherwise reports failure; it always ends. (Violated: with one to four servers and no usable answer it never ends, with none it panics; it ends once five different servers were drawn.)",
  "all numbers of servers, all answers and all random draws",
  "Depends on the random draws, and non-termination cannot be tested.",
  "emissary-util/src/reseeder.rs: Reseeder::reseed_inner")
p("A router keeps its identity over restarts",
  "Once the program has started well, every later start that succeeds uses the same static, signing, NTCP2 and SSU2 keys, whatever new keys could have been drawn and wherever any number of starts between them were killed.",
  "all contents of the data directory, all sequences of starts, each complete or stopped after any number of changes to the disk, all configurations and arguments",
  "the crash points of repeated starts form an infinite set of histories; tests start the program once in an empty directory",
  "emissary-cli/src/config.rs: Config::parse, Config::new_empty, Config::load_key, Config::create_static_key, Config::create_signing_key, Config::create_ntcp2_keys, Config::create_ssu2_keys")
p("A damaged key file is not silently replaced",
  "A key file that is there is used or reported: a start does not go on with another identity because a key file is damaged, and it does not overwrite it. (Violated: a file that is too short is replaced by a new key; proved in part: a file that is long enough is never changed and its beginning is the key.)",
  "all contents of the key files, all histories of starts",
  "the contents of the file and the crash history are unbounded",
  "emissary-cli/src/config.rs: Config::load_key, Config::parse")
p("After a start every directory that router infos are stored in exists",
  "After a start that succeeds, a router info can be stored for every router identifier, even if an earlier start was killed at any point. (Violated: if the first start is killed while it makes the directories, the missing ones are never made.)",
  "all stop points of the first start, all later histories",
  "needs a kill between two system calls of the first start",
  "emissary-cli/src/config.rs: Config::create_netdb_dir, Config::parse", "emissary-cli/src/storage.rs: RouterStorage::store_router_info")
p("The configuration file of the user is replaced only when asked",
  "router.toml is replaced by the default configuration only if --overwrite-config was given. (Violated: a file that cannot be read as text is replaced without it; proved in part: a valid file is never changed, and an invalid one only with the option.)",
  "all contents of router.toml, all histories of starts and stop points",
  "unbounded contents and histories",
  "emissary-cli/src/config.rs: Config::load_router_config, Config::parse")
p("A killed first start does not change the configuration of the next",
  "If the first start is killed, the next start uses the default configuration with its arguments. (Violated: killed while router.toml is written, the part that was written is the configuration from then on; the empty part is one, with everything disabled. Proved in part: killed before that point, it uses the default.)",
  "all stop points of the first start, all default configuration texts, all parsers",
  "needs a kill between two system calls of the first start",
  "emissary-cli/src/config.rs: Config::new_empty, Config::load_router_config, Config::parse")
p("The arguments of the command line are respected",
  "A start uses the configuration changed by the arguments of the command line. (Violated: the first start, in a directory that does not exist, ignores them; proved in part: every other start uses them on top of the file or of the default.)",
  "all arguments, all contents of the data directory",
  "ranges over all argument combinations and directory contents",
  "emissary-cli/src/config.rs: Config::parse, Config::new_empty, Config::merge")
p("Arguments take precedence over the configuration file",
  "Every argument that is given has its effect on the configuration the router runs with, and everything no argument is about is as in the file. (Violated: the port or the address of the HTTP proxy given alone is dropped if the file has no HTTP proxy.)",
  "all configurations, all combinations of arguments",
  "the combinations of options are too many to test",
  "emissary-cli/src/config.rs: Config::merge", "emissary-cli/src/cli.rs: Arguments")
p("Tunnels of the configuration do not collide",
  "A configuration is accepted exactly if no two client tunnels share a name or a port and no two server tunnels share a name, a port or a destination file.",
  "all lists of client and server tunnels",
  "unbounded lists",
  "emissary-cli/src/config.rs: Config::new")
p("Routers are downloaded exactly when needed",
  "A start downloads routers exactly if that is forced, or it is not disabled and fewer routers are known than the limit given by the arguments, else by the file, else 25 if only servers were given.",
  "all configurations, arguments and numbers of known routers",
  "interaction of five options and the file",
  "emissary-cli/src/main.rs: setup_router", "emissary-cli/src/config.rs: Config::merge")
p("A profile is loaded for the router it was stored for",
  "The name read back from the file of a profile is the identifier of the router it was stored for. (Violated: with .toml in the path of the data directory loading panics; with profile- in it all names are wrong; proved in part for all other paths.)",
  "all data directory paths, all router identifiers",
  "tests use one temporary directory",
  "emissary-cli/src/config.rs: Config::load_router_profiles", "emissary-cli/src/storage.rs: RouterStorage::store_profile")
p("Router infos and profiles survive a restart",
  "After a batch of routers was stored completely, the next start loads for each of them exactly the profile stored last, to the second, and its router info, whatever was stored or interrupted before and whatever is stored for other routers later.",
  "all file contents, all sequences of batches, each complete or stopped at any point",
  "unbounded histories and crash points",
  "emissary-cli/src/storage.rs: RouterStorage::save_to_disk, RouterStorage::store_router_info, RouterStorage::store_profile", "emissary-cli/src/config.rs: Config::load_router_profiles, Config::load_router_infos")
p("Being killed while storing loses nothing that was stored",
  "If the program is killed while it stores a batch, every router info and profile is the old or the new one. (Violated: files are emptied before they are written, and an empty profile file counts as a profile without any history; proved in part: every file is the old one or a beginning of the new one.)",
  "all batches, all stop points",
  "needs a kill between two system calls",
  "emissary-cli/src/storage.rs: RouterStorage::store_router_info, RouterStorage::store_profile", "emissary-cli/src/config.rs: Config::load_router_profiles")
p("Port forwarding maps the ports of the transports",
  "The port mapper asks the gateway to forward exactly the ports of the enabled transports, NTCP2 over TCP and SSU2 over UDP, and UPnP has removed every mapping when the router has shut down. (Violated: NAT-PMP never maps a UDP port; proved in part for UPnP.)",
  "all port configurations, all gateway behaviours, all event orders",
  "the gateway and the order of events are outside the program",
  "emissary-cli/src/port_mapper/nat_pmp.rs: PortMapper::try_map_ntcp2, PortMapper::try_map_ssu2, PortMapper::run", "emissary-cli/src/port_mapper/upnp.rs: PortMapper::run")
p("UPnP takes over if NAT-PMP does not work",
  "If NAT-PMP fails and UPnP is enabled, UPnP is started. (Violated: an operation that ends with an error is polled again and panics; proved in part: if an operation times out, UPnP is started.)",
  "all results and durations of all operations",
  "depends on the timing and the answers of the gateway",
  "emissary-cli/src/port_mapper/nat_pmp.rs: PortMapper::with_retries_and_timeout, PortMapper::try_switch_to_upnp, PortMapper::run")
p("The router is told every change of its external address",
  "The router is told the external addresses that the gateway gives, each change once, so that the last one it was told is the last one the gateway gave. (Violated after an error, see C221; proved in part otherwise.)",
  "all event sequences, all gateway answers",
  "unbounded sequences of timer events and answers",
  "emissary-cli/src/port_mapper/nat_pmp.rs: PortMapper::run", "emissary-cli/src/port_mapper/upnp.rs: PortMapper::run")
p("The gateway is asked for the address every five minutes",
  "There are at least five minutes between two questions for the external address. (Violated by UPnP: its timer is never set again, and it asks without pause; proved in part for NAT-PMP.)",
  "all durations of answers, any number of questions",
  "only shows after the first five minutes, and for all answer times",
  "emissary-cli/src/port_mapper/upnp.rs: PortMapper::run", "emissary-cli/src/port_mapper/nat_pmp.rs: PortMapper::run")
p("A server tunnel keeps its address",
  "Once a server tunnel has an address, every later start of the program has the same. (Violated: a start that is killed while it stores the key leaves a part of it, which every later start takes for the key; a key that cannot be stored is replaced at every start; proved in part: a key that was stored completely is kept for ever.)",
  "all sequences of starts, all stop points, all answers of the SAM server",
  "needs kills between two system calls over several starts",
  "emissary-cli/src/tunnel/server.rs: ServerTunnelManager::load_or_create_destination")
p("A client tunnel serves every connection",
  "Every connection to the port of a client tunnel is served with a stream to the destination and port of that tunnel. (Violated: a connection that is made while the tunnel serves another one is never served; proved in part: a tunnel that waits serves the next connection, and no connection is served with the destination of another tunnel.)",
  "all numbers of tunnels, all event sequences",
  "unbounded interleavings of connections to several tunnels",
  "emissary-cli/src/tunnel/client.rs: ClientTunnelManager::run, ClientTunnelManager::tunnel_event_loop")
p("A SAM client and the router agree on a version",
  "A SAM connection goes on only after a greeting; its version is the one the client was told, and it is in the range that the client asked for. (Violated: the minimum is ignored; proved in part: the version is the smaller one of the client's maximum and the router's.)",
  "all sequences of commands and polls",
  "all orders of commands, split over any polls",
  S+"sam/pending/connection.rs: PendingSamConnection")
p("A SAM client that sends commands keeps its connection",
  "A SAM connection is closed for silence only if the client was silent for ten seconds. (Violated: the time runs from the greeting, whatever the client sends after it; proved in part: there are ten seconds from the beginning and from the greeting.)",
  "all sequences of commands, all times",
  "needs all timings of commands",
  S+"sam/pending/connection.rs: PendingSamConnection")
p("Keys that a SAM client is given can be used",
  "The private key in the answer to DEST GENERATE can be given to SESSION CREATE and makes a session with the destination of the answer and the keys that belong to it.",
  "all keys, all destinations, all names of sessions",
  "for all values of the keys",
  S+"sam/pending/connection.rs: PendingSamConnection", S+"sam/parser.rs: SamCommand::try_from")
p("A reachable router is connected to",
  "A request to connect to a known router makes the router send to an address from the router info, over an enabled transport, expecting the key given there; it never stops the router. (Violated: with both transports enabled a router that has only an SSU2 address is never connected to; with SSU2 alone a request to connect to a router with no SSU2 address is a panic; proved in part: otherwise the router is dialled at its address.)",
  "all router infos, all combinations of transports",
  "needs all router infos of the network",
  S+"transport/mod.rs: TransportManager::on_dial_router", S+"transport/ntcp2/session/mod.rs: SessionManager::create_session", S+"transport/ssu2/socket.rs: Ssu2Socket::connect")
p("Private addresses are used only if allowed",
  "Unless local addresses are allowed, the router neither connects to, nor takes connections from, private and reserved addresses. (Violated: SSU2 dials them, and NTCP2 does so for IPv6; proved in part: it holds for NTCP2 and IPv4.)",
  "all addresses, all router infos, all sequences of incoming connections",
  "for every address",
  S+"transport/ntcp2/listener.rs: Ntcp2Listener::poll_next", S+"transport/ntcp2/session/mod.rs: SessionManager::create_session", S+"transport/ssu2/socket.rs: Ssu2Socket::connect")
p("The published address is the one the router listens on",
  "Other routers read from the local router info, for each transport that is to be published, the configured host or the external address found last, with the port that the transport listens on; and nothing for one that is not. (Violated: with a port chosen by the operating system, the port published with an external address is 0; proved in part: it holds for configured ports.)",
  "all configurations, all sequences of external addresses",
  "for all histories of addresses, seen through serialization and parsing",
  S+"transport/mod.rs: TransportManager::add_external_address", S+"primitives/router_address.rs: RouterAddress", S+"transport/ntcp2/mod.rs: Ntcp2Transport::initialize", S+"transport/ssu2/mod.rs: Ssu2Transport::initialize")
p("An error of the network does not stop the router",
  "An error in accepting one connection or in sending one datagram concerns this connection or datagram alone. (Violated: the first one ends the transport and with it the router; proved in part: without such errors and without panics the transport never ends, and datagrams are sent in order, each once.)",
  "all sequences of connections, handshakes, polls and answers of the operating system",
  "needs failures of the operating system at every moment",
  "emissary-util/src/runtime/tokio.rs: TcpListener::poll_accept, UdpSocket::poll_send_to", S+"transport/ntcp2/mod.rs: Ntcp2Transport::poll_next", S+"transport/ssu2/socket.rs: Ssu2Socket::poll_next", S+"router/mod.rs: Router::poll")
p("Each NTCP2 connection is reported once",
  "The transport reports every handshake that ends, and every connection that ends, once, in the order in which they end, and reports nothing else; a bounded number of polls is enough for all of them.",
  "all sequences of connections, dials, ends and polls",
  "all interleavings of handshakes and polls",
  S+"transport/ntcp2/mod.rs: Ntcp2Transport::poll_next")
p("The NTCP2 transport does not sleep on work",
  "When the transport goes to sleep, nothing that it could take at once is waiting, or it is woken. (Violated: a second connection that arrives with the first one waits for an unrelated event, and so do handshakes behind one that failed without a known router; proved in part: in all other cases it holds.)",
  "all states of the transport",
  "a lost wake-up depends on the order of events between two polls",
  S+"transport/ntcp2/mod.rs: Ntcp2Transport::poll_next", "emissary-util/src/runtime/tokio.rs: JoinSet")
p("A message sent through an outbound tunnel is delivered",
  "Whatever the owner of an outbound tunnel sends through it to a router or tunnel goes to the first hop, is passed on by every participant, and, in whatever order its pieces reach the endpoint and whatever else reaches it before, is delivered by the endpoint to that router or tunnel, unchanged, once, when its last piece arrives, unless it has expired. (Proved in part: for messages of up to 64 pieces, see C12.)",
  "all messages, all paths, all orders of arrival, all other traffic in the tunnel",
  "all interleavings of pieces with other traffic through five programs in a row",
  S+"tunnel/hop/outbound.rs: OutboundTunnel::{send_to_router,send_to_tunnel}", S+"tunnel/transit/participant.rs: Participant", S+"tunnel/transit/outbound.rs: OutboundEndpoint")
p("A message sent to an inbound tunnel reaches its owner",
  "A message that the gateway of an inbound tunnel is given for it reaches the owner through all participants, unchanged, once, in whatever order its pieces arrive and whatever else arrives, unless it has expired at the gateway; and what an outbound endpoint sends for a tunnel (C235) is such a message. (Proved in part: for messages of up to 64 pieces, see C12.)",
  "all messages, all paths, all orders of arrival, all other traffic in the tunnel",
  "all interleavings of pieces with other traffic",
  S+"tunnel/transit/inbound.rs: InboundGateway", S+"tunnel/transit/participant.rs: Participant", S+"tunnel/hop/inbound.rs: InboundTunnel")
p("A transit tunnel goes on whatever it is sent",
  "The task of a transit tunnel goes on until its time is up, whatever messages it takes, and every message that it gives to the routing table can be read. (Violated in debug builds: a message for the other kind of tunnel ends the process; proved in part: release builds go on, and the messages can be read in both.)",
  "all sequences of messages, ticks and timers, for participants, gateways and endpoints",
  "every message and every set of pieces, of any sizes and numbers, in any order",
  S+"tunnel/transit/participant.rs: Participant::poll", S+"tunnel/transit/inbound.rs: InboundGateway::poll", S+"tunnel/transit/outbound.rs: OutboundEndpoint::poll")
p("Hops send only where they were told to",
  "A participant sends one tunnel message to its next hop for each tunnel message it takes and nothing otherwise; a gateway sends only tunnel messages to its next hop; an endpoint sends only to routers that the instructions of a piece from the tunnel named.",
  "all sequences of messages",
  "for every message, well-formed or not",
  S+"tunnel/transit/participant.rs: Participant::handle_tunnel_data", S+"tunnel/transit/inbound.rs: InboundGateway::handle_tunnel_gateway", S+"tunnel/transit/outbound.rs: OutboundEndpoint::handle_tunnel_data")
p("Transit bandwidth is counted",
  "The transit bandwidth that is reported is that of all messages transit tunnels took and sent. (Violated: what a tunnel carried since its last report is dropped when it ends; proved in part: until then every byte is counted once.)",
  "all sequences of messages, ticks and timers",
  "all interleavings of traffic, reports and ends",
  S+"tunnel/transit/participant.rs: Participant::poll", S+"events.rs: EventHandle::transit_tunnel_bandwidth")
p("A zero-hop tunnel brings the reply",
  "A zero-hop tunnel hands over the reply that is sent to it, at most once, and its place is free after the reply or the timer. (Violated: whatever is sent to it first uses it up; proved in part: the first message decides, and the tunnel always ends.)",
  "all sequences of routed messages and polls",
  "all orders of messages and polls",
  S+"tunnel/pool/zero_hop.rs: ZeroHopInboundTunnel")
p("DSA signatures are checked exactly",
  "Under the public key g^x mod p, a DSA signature is accepted if and only if it satisfies the signing equations of the standard for the private key x and some secret number; numbers that are zero or not below the group order are refused under any key.",
  "all private keys, messages and signatures",
  "for every signature of 320 bits; tests check a few vectors",
  S+"crypto/dsa.rs: DsaPublicKey::{new,verify}")
p("Signing keys and signatures as bytes",
  "A DSA key read from 128 bytes is written as the same 128 bytes, leading zeroes included; a signature whose length is not that of the key's signatures is refused. (Violated: a DSA signature with anything after it is accepted; proved in part: shorter ones are refused by every key, and longer ones by the other kinds.)",
  "all 128-byte strings; all keys, messages and signatures",
  "leading zeroes are rare in random keys",
  S+"crypto/dsa.rs: DsaPublicKey::from_bytes, rectify, DsaSignature::from_bytes", S+"crypto/mod.rs: SigningPublicKey::verify")
p("No nonce is used twice under a key",
  "Of the messages sealed with one cipher object, each has a nonce of its own; when the nonces are used up, sealing fails from then on; and messages opened in the order in which they were sealed give what was sealed.",
  "all sequences of messages, all first nonces",
  "the counter runs over 2^64 values",
  S+"crypto/chachapoly.rs: Nonce::next, ChaChaPoly::{encrypt_with_ad,decrypt_with_ad,with_nonce}")
p("Everything that is written to a stream arrives",
  "Whatever is written to a stream is read by the other side after some time, in order and unchanged, and the sender then holds nothing, in every schedule in which no one stops for good: a packet that is sent again and again arrives now and then, acknowledgements arrive now and then, timers run out, and the reader reads; on streams of fewer than 2^32 - 1 packets.",
  "all infinite schedules of writes, timers, deliveries, losses, duplicates, reorderings, acknowledgements and reads that are fair",
  "liveness under any loss and reordering is a statement about infinite runs",
  S+"sam/protocol/streaming/stream/active.rs: Stream::{poll,handle_acks,packetize,resend}, InboundContext::handle_packet")
p("The HTTP proxy answers every request",
  "A browser that sends a request through the HTTP proxy gets the reply of the destination as it is, or a complete error page whose announced length is its length: 400 with the reason if the request is not understood, 500 with the host if the destination cannot be reached.",
  "every request, however it is cut into reads, and everything a destination may do",
  "the bytes of a request, the ways it arrives and the outcomes of connecting are unbounded",
  "emissary-cli/src/proxy/http/response.rs ResponseBuilder::build", "emissary-cli/src/proxy/http/mod.rs HttpProxy::run, on_request")
p("Error pages show what a request said as text",
  "Nothing in a request becomes markup of the error page that the HTTP proxy shows for it.",
  "every host that a request can name",
  "the markup that a request may carry is unbounded",
  "emissary-cli/src/proxy/http/response.rs ResponseBuilder::build", "emissary-cli/src/proxy/http/mod.rs HttpProxy::on_request")
p("Accepted connections come with the address of the peer",
  "On every runtime, a connection is reported with the address of the peer, in the order of the backlog, so that the listener turns away exactly the peers with private addresses.",
  "every backlog of connections and errors, on both runtimes",
  "depends on the runtime and on what is in the backlog",
  "emissary-util/src/runtime/tokio.rs TokioTcpListener::poll_accept", "emissary-util/src/runtime/async_std.rs AsyncStdTcpListener::poll_accept", S+"transport/ntcp2/listener.rs Ntcp2Listener::poll_next")
p("Datagrams that are reported as sent are sent",
  "On every runtime, the datagrams whose sending is reported are those that the system is handed, in this order and once each; the datagrams that arrive are given to the router in order, none left out; an error while receiving leaves the socket usable, and no datagram panics.",
  "every sequence of calls, arrivals, errors and steps of the task behind the socket, on both runtimes",
  "the schedules of the task and the router are unbounded, and the loss needs thousands of queued datagrams",
  "emissary-util/src/runtime/tokio.rs TokioUdpSocket", "emissary-util/src/runtime/async_std.rs AsyncStdUdpSocket", S+"transport/ssu2/socket.rs READ_BUFFER_LEN")
p("A set of tasks gives each result once",
  "The owner of a set of tasks is given the result of every task that finishes exactly once, is told to wait only when it was given all of them, is woken by the next task that is pushed or ends, and is never told that the set ended.",
  "every history of pushed, finished and panicked tasks and of polls, on both runtimes",
  "the orders in which tasks finish and polls happen are unbounded",
  "emissary-util/src/runtime/tokio.rs TokioJoinSet", "emissary-util/src/runtime/async_std.rs AsyncStdJoinSet, FuturesJoinSet")
p("A message crosses two tunnels unchanged",
  "A message that a router sends through one of its outbound tunnels to an inbound tunnel of another router is handed over by that router's tunnel exactly as it was sent, once, when its last piece has come. The pieces may be delayed, reordered and mixed with any other traffic on either tunnel, as long as the message gets to the gateway before it expires.",
  "all pairs of tunnels of any length, all messages, all arrival orders and all other traffic at the endpoint and at the owner",
  "depends on the fragmentation, the layered encryption of every hop and the reassembly at two places; tests send one message through fixed tunnels in order",
  S+"tunnel/hop/outbound.rs:OutboundTunnel::send_to_tunnel", S+"tunnel/transit/outbound.rs:OutboundEndpoint", S+"tunnel/transit/inbound.rs:InboundGateway", S+"tunnel/hop/inbound.rs:InboundTunnel")
p("What one destination sends is what the other reads",
  "Data that a client gives to its destination for another one is encrypted, sent through any outbound tunnel to any lease of the other destination, and what the other destination reads from it is exactly this data, both for the first messages, before there is an answer, and for those of a session.",
  "all data, all pairs of tunnels, all states of the two session managers that the steps of a session lead to, all arrival orders",
  "end to end through sessions and tunnels, for every state of both; no test of the project runs all layers together with all arrival orders",
  S+"destination/mod.rs:Destination::send_message_inner", S+"destination/mod.rs:Destination::decrypt_message", S+"destination/session/mod.rs:SessionManager::encrypt", S+"destination/session/mod.rs:SessionManager::decrypt")
p("A datagram of a client arrives at the other client as it was sent",
  "A datagram that a SAM client sends arrives at the UDP port of the client of the session it is for, with the line that names the sender if the session is for repliable datagrams, and with exactly the bytes that were sent, through compression, session, both tunnels and back.",
  "all datagrams, all pairs of sessions, all pairs of tunnels, all arrival orders of the pieces",
  "a statement about the composition of all layers for all inputs and schedules",
  S+"sam/protocol/datagram/mod.rs:DatagramManager::make_datagram", S+"sam/protocol/datagram/mod.rs:DatagramManager::on_datagram", S+"sam/session.rs:SamSession::on_inbound_message", S+"destination/mod.rs:Destination")
p("SSU2 packets reach their session in order",
  "What a session gets is exactly what was addressed to its connection id, in the order of arrival, each packet once.",
  "Every sequence of datagrams, dials, handshake outcomes, decisions and polls, for every number of sessions.",
  "Which packets find the channel full, and what other sessions do in between, depends on the schedule.",
  S+"transport/ssu2/socket.rs: Ssu2Socket::handle_packet, connect, accept, reject, poll_next", S+"transport/ssu2/session/active/mod.rs: Ssu2Session::run")
p("The end of an SSU2 connection leaves the router running",
  "When a connection ends, for whatever reason, the peer is told, the transport manager is told, and the router goes on.",
  "Every history of the socket, every session, every packet of the peer and every termination reason.",
  "Tests close sessions from the local side or not at all; the panic needs a session that ends inside a running socket.",
  S+"transport/ssu2/socket.rs: poll_next", S+"transport/ssu2/session/active/mod.rs: handle_packet, run", S+"transport/ssu2/session/terminating.rs: TerminatingSsu2Session::new")
p("The SSU2 socket keeps nothing of connections that are over",
  "Entries made for a connection are removed when it fails, is rejected or ends; strangers cannot make the router keep state for ever.",
  "Every history of the socket.",
  "A leak is a statement about all histories, not about one.",
  S+"transport/ssu2/socket.rs: sessions, pending_outbound, unvalidated_sessions")
p("Subsystems hear of every SSU2 connection once",
  "The other subsystems are told that a connection is up exactly when it was accepted, and told once that it is down when it ends; rejected and failed connections are never reported.",
  "Every history, every session, in builds with and without debug assertions.",
  "Reports depend on the order of handshakes, decisions and packets.",
  S+"transport/ssu2/session/active/mod.rs: Ssu2Session::run", S+"transport/ssu2/socket.rs: accept, reject")
p("A vanished SSU2 peer is noticed",
  "A connection on which nothing arrives any more is closed after a while.",
  "Every history in which the peer sends nothing, of any length.",
  "The claim is about unbounded time.",
  S+"transport/ssu2/session/active/mod.rs: Ssu2Session poll")
p("Messages cross an NTCP2 connection in order",
  "At every moment the receiving router has handed on exactly the first so many of the messages that the sending router accepted for the connection, in order and each once, and neither side has ended the session.",
  "Every infinite schedule of sends, partial writes and partial reads, every socket buffer size, every lawful AEAD, all messages that fit an NTCP2 frame.",
  "Where TCP cuts the byte stream, and how reads and writes interleave, is up to the schedule.",
  S+"transport/ntcp2/session/active.rs: Ntcp2Session poll, run")
p("Every message handed to an NTCP2 connection is delivered",
  "In every fair schedule every message that was accepted for the connection comes out at the other router, even if the socket takes a byte at a time.",
  "Every infinite schedule in which writer and reader run again and again; every socket buffer of at least a byte.",
  "Liveness is a statement about infinite executions.",
  S+"transport/ntcp2/session/active.rs: Ntcp2Session poll, run")
p("Two routers agree on being connected",
  "Whatever two routers ask for and however their connections break, each takes the other for connected exactly while it has an open connection to it, never has two, and when nothing is under way both are of the same opinion.",
  "Every history of dials, handshake completions at either end in every order, and losses.",
  "The agreement depends on the interleaving of two routers.",
  S+"transport/mod.rs: TransportManager::poll, on_dial_router", S+"transport/ntcp2/mod.rs: Ntcp2Transport::accept, reject, connect")
p("Routers that dial each other end up connected",
  "When one or both of two routers ask for a connection and no network error occurs, they end up with one working connection.",
  "Every order in which the handshakes complete at the two ends.",
  "Simultaneous dials are a race between two routers.",
  S+"transport/mod.rs: TransportManager::poll", S+"transport/ntcp2/mod.rs: Ntcp2Transport::accept, reject")
p("The NTCP2 transport is woken for everything that waits for it",
  "When the transport says that it has nothing to do, nothing waits for it, and whatever happens next wakes it.",
  "Every state of the listener, the handshakes and the sessions, both runtimes.",
  "A lost wake-up shows only under particular timings.",
  S+"transport/ntcp2/mod.rs: Ntcp2Transport::poll_next", S+"runtime/tokio.rs: TokioJoinSet", S+"runtime/async_std.rs: FuturesJoinSet")
p("The transport manager hears once of every NTCP2 handshake and session",
  "Each handshake that ends with a session, or that was the router's own and failed, and each session that closes is reported exactly once; accepting and rejecting always finds the session; as many sessions run as were accepted and have not closed.",
  "Every history of dials, arriving connections, handshakes and sessions that end, polls and decisions; both runtimes; with and without debug assertions.",
  "It is a count over whole histories.",
  S+"transport/ntcp2/mod.rs: Ntcp2Transport::poll_next, accept, reject, connect")
p("Requests go to floodfills",
  "Searches and stores that a user starts are sent only to routers that said that they are floodfills: those known as such at start-up, and those that connected or published a router info saying so. A router that says so is used from then on. No other router is asked.",
  "every history of the network database task and every request", "ranges over all histories of stores, connections and searches",
  S + "netdb/mod.rs: on_database_store, on_connection_established, query_lease_set, query_router_info, publish_router_info", S + "netdb/query.rs: Query::handle_search_reply", S + "netdb/dht.rs: Dht::{add_router,closest}")
p("Every garlic tag that is waited for is watched for",
  "As long as a garlic session holds the key for a message with some tag, a message that arrives with this tag is given to that session: no tag is forgotten while its key is kept, whatever messages, ratchets, answers, expirations and other sessions come between, provided that the tag was generated only once.",
  "every sequence of calls of an identity's garlic code, every tag", "ranges over all histories of all sessions, which share one table of tags",
  S + "destination/session/mod.rs: SessionManager::{encrypt,decrypt,maintain}", S + "destination/session/session.rs: PendingSession::{advance_outbound,advance_inbound}, Session::{decrypt,maintain,destroy}")
p("Ctrl-C and the button end the program",
  "A user who asks for the shutdown once, by Ctrl-C or by the window's button, has the program end when the router's transit tunnels are gone; one who presses Ctrl-C twice has it end in any case. Without a request it runs on. The router is not asked to shut down more often than the user asked.",
  "every schedule of the event loop in which everything that waits gets its turn, every moment of the requests, with and without port forwarding", "liveness: ranges over infinite schedules of signal handler, window, port mapper, router and transit manager",
  "emissary-cli/src/main.rs: router_event_loop", "emissary-cli/src/signal.rs: SignalHandler", "emissary-cli/src/port_mapper/mod.rs: PortMapper::{shutdown,poll_next}", S + "router/mod.rs: Router::{shutdown,poll}")
p("The window shows what is true",
  "The numbers in the window are those that were true when the router's status timer last fired; the destinations in it are those that were started, once each and in order; the line about the shutdown says active until a shutdown has begun and then counts down ten minutes to the second; uptime, bandwidth and success rate are shown in units that give back the value.",
  "every sequence of reports, timers, refreshes and clicks; every number", "ranges over all interleavings of the router and the window and over all numbers",
  "emissary-cli/src/ui/mod.rs: RouterUi::{update,view,calculate_bandwidth}, Status", S + "events.rs: EventManager, EventSubscriber::router_status")
p("The log option says what is logged",
  "An option of the form target,target=level,... gives each target the level of its group and nothing else; no option, and no preset, makes the program panic.",
  "every list of groups of targets and levels, every reading of levels", "ranges over all strings",
  "emissary-cli/src/logger.rs: parse_log_targets, PRESETS")
p("What is configured is started",
  "The router is given every router that is known or was downloaded, and no other; it refuses to start for want of routers exactly if it knows none and a download that was due failed. The proxy, the tunnels and the address book that are configured run.",
  "every configuration, every result of the download, of the router's start and of the creation of destinations", "ranges over all combinations of settings and failures",
  "emissary-cli/src/main.rs: setup_router")
p("What a destination sends leaves through one of its own tunnels",
  "Whatever a tunnel pool sends for those who use it (a destination, the netDb, another pool with a build request) goes to the first hop of an outbound tunnel that this pool has built, encrypted in layers for the hops of that tunnel, and never directly to the router or tunnel that it is for. Messages are taken in the order in which they were accepted, each one once. They go over the tunnel they name while it is up, or over another one if it is gone, and reach the router or tunnel they are for (with C235). (Proved in part; refuted: a message that was accepted is dropped without notice while the pool has no outbound tunnel, a build request bound to a tunnel that has expired meanwhile is dropped although there are others, and with debug assertions a message that names a tunnel which has expired meanwhile ends the pool.)",
  "all histories of builds, expirations, messages and polls, all choices of tunnels by the hash map, all messages",
  "all interleavings of messages with the life of tunnels; a test sees the tunnel it has set up",
  S+"tunnel/pool/mod.rs: TunnelPool::poll", S+"tunnel/pool/handle.rs: TunnelSender, TunnelMessageSender", S+"tunnel/pool/context.rs: TunnelPoolContextHandle::{send_to_router_with_feedback,send_to_tunnel}, TunnelMessage", S+"tunnel/hop/outbound.rs: OutboundTunnel::{send_to_router,send_to_tunnel}")
p("A session goes on over any number of ratchets",
  "Once two destinations have a session they talk for as long as they like: whoever speaks and whatever keys are drawn, every message is sent and is read as what was sent, also the messages that ask for a new tag set, that answer, and that come before the answer, and also when both sides ask at the same time. (Proved in part: for up to 65535 tag sets in each direction, when messages arrive in the order in which they were sent, no tag comes up twice and nobody speaks more often in a row than tags are generated ahead, which is refuted otherwise: a side that is not answered after its ratchet loses its messages after 4096 and 128 of them.)",
  "all conversations of any length, all draws of keys and all times, all sessions in which no ratchet was made",
  "the ratchet takes 20000 messages to come, and the second and third forms of it 40000 more",
  S+"destination/session/session.rs: Session::{encrypt,decrypt,handle_next_key}", S+"destination/session/tag_set.rs: TagSet::{next_entry,try_generate_next_key,handle_next_key,can_ratchet,reinitialize_tag_set}", S+"destination/session/mod.rs: SessionManager::{encrypt,decrypt}")
p("NTCP2 connects to every conforming implementation",
  "A peer that follows the NTCP2 specification, whichever implementation it is, is accepted when it dials and is reached when it is dialled, whatever padding it uses and whatever blocks it puts after its router info; both sides have the same keys. (Proved for peers that pad their messages, with padding of any length; refuted for peers that send no padding: the specification leaves empty padding out of the handshake hash and the code puts it in, so the handshake fails.)",
  "all peers that follow the specification, all keys, paddings, blocks and router infos",
  "tests connect the code to itself, and both ends make the same deviation",
  S+"transport/ntcp2/session/responder.rs: Responder::{new,create_session,finalize}", S+"transport/ntcp2/session/initiator.rs: Initiator::{new,register_session_created,finalize}")
p("Keys are derived as the specifications say",
  "The keys, tags and nonces with which destinations' sessions, tunnel build records, and SSU2 handshakes and data packets are encrypted are those that the ECIES, tunnel creation and SSU2 specifications derive (HKDF and Noise with the labels given there), for every tag set, ratchet and hop, so that another implementation comes to the same ones.",
  "all keys, all key material, all positions in a tag set, all hash functions and ciphers",
  "a test compares the code with itself: the same wrong label on both sides goes unnoticed",
  S+"destination/session/tag_set.rs: TagSet::{new,next_entry,reinitialize_tag_set}", S+"destination/session/context.rs: KeyContext", S+"tunnel/noise.rs: NoiseContext, InboundSession::{derive_tunnel_keys,finalize}, OutboundSession", S+"transport/ssu2/session: pending, active")
p("Messages have the layout of the specifications",
  "What is sent is laid out byte for byte as the I2NP, tunnel message, tunnel creation, ECIES (garlic), streaming and datagram specifications say, and what is laid out so by another implementation is read as what it means: I2NP headers, lookups, stores and their answers, build records, fragments and tunnel messages, cloves and the other blocks of garlic messages, packets of streams, and payloads with their ports and protocols. (Proved in part; refuted for lookups that ask for an encrypted reply: none of them is read.)",
  "all field values, all payloads, any number of records, blocks, fragments and options",
  "tests write and read with the same code, so a field in the wrong place on both sides is not seen",
  S+"i2np/mod.rs: Message, HopRole", S+"i2np/database/lookup.rs: DatabaseLookup", S+"i2np/database/store.rs: DatabaseStore", S+"i2np/tunnel/build/short.rs: TunnelBuildRecord", S+"i2np/tunnel/data.rs: TunnelData, TunnelDataBuilder", S+"i2np/garlic.rs: GarlicMessage", S+"destination/protocol/streaming/packet.rs: Packet, PacketBuilder", S+"i2cp/payload.rs: I2cpPayload")
p("Lease sets and router infos have the layout of the specification",
  "Lease sets and router infos are made as the common structures specification says, with the signature over the bytes that it says, and every one that is made so by another implementation is read as what it means: with any options, further keys of types that are not known, any number of addresses. (Proved in part: for lease sets with a key for ECIES signed by the destination itself or by a transient key, and for router infos with addresses for NTCP2 and SSU2; refuted for lease sets that have only keys of other types, for those with a transient key of a destination with a DSA key, and for router infos that list an address for any other transport besides: the whole router info is rejected.)",
  "all destinations, times, options, keys, leases and addresses",
  "tests write and read with the same code and a few recorded files",
  S+"primitives/lease_set.rs: LeaseSet2, LeaseSet2Header", S+"primitives/router_info.rs: RouterInfo", S+"primitives/router_address.rs: RouterAddress", S+"primitives/mapping.rs: Mapping")
p("SSU2 connects to every conforming implementation",
  "A router that dials a peer over SSU2 sends token request, `SessionRequest` and `SessionConfirmed` byte for byte as the specification says, and has a session with the keys of the specification whatever retry, token, packet numbers, keys and payloads the peer chooses; a router that is dialled answers every token request, `SessionRequest` and `SessionConfirmed` of the specification as it says and has the same session. (Proved in full for dialling; in part for being dialled: for payloads of blocks that the code knows or passes over, and a router info that is not compressed and fits one packet. Refuted for blocks of unknown types, which the specification tells implementations to ignore, and for compressed router infos.)",
  "all keys, connection ids, tokens, packet numbers, times, paddings and sequences of blocks",
  "the tests run the code against itself, so a mistake made on both sides is not seen",
  S+"transport/ssu2/session/pending/outbound.rs: OutboundSsu2Session", S+"transport/ssu2/session/pending/inbound.rs: InboundSsu2Session", S+"transport/ssu2/message.rs: TokenRequestBuilder, RetryBuilder, SessionRequestBuilder, SessionCreatedBuilder, SessionConfirmedBuilder, Block, HeaderReader")
p("Tunnels are built through routers of any implementation",
  "Whoever builds a tunnel sends records from which every router that follows the tunnel creation specification, whichever implementation it is, reads its ids, next router, role and times, and comes to the keys that the creator has for it; whatever these routers answer, in whichever way the answers come back, the creator has a tunnel through them exactly if all of them agreed. A router that is asked by any implementation, with any options, padding and other records, reads the record, decides by its own limits, answers as the specification says and passes the records on to where it was told. (Short build messages, ECIES.)",
  "all sequences of one to eight routers, all keys, ids, times, options, paddings and answers, both directions",
  "the tests build tunnels through the code itself, so a mistake made on both sides is not seen",
  S+"tunnel/hop/pending.rs: PendingTunnel::{create_tunnel,try_build_tunnel}", S+"tunnel/transit/mod.rs: TransitTunnelManager::handle_short_tunnel_build", S+"tunnel/noise.rs: NoiseContext, InboundSession, OutboundSession", S+"i2np/tunnel/build/short.rs: TunnelBuildRecord")
p("What the network database says arrives as it was meant",
  "A published lease set arrives at the floodfill it was sealed to as a store of exactly that lease set under that key, with the confirmation to come through the tunnel that was chosen and under the token drawn; a lookup arrives as a lookup of that kind for that key, to be answered through the tunnel that was chosen; answers, floods and confirmations arrive, through a tunnel, at a router or at the gateway of a tunnel, as what they say. (Refuted when the token drawn is zero, which nothing excludes: the store then cannot be read, or at any rate not as the one that was sent, and no confirmation is asked for.)",
  "all keys, lease sets and router infos, tunnels, tokens, message ids, times, floodfill keys and ephemeral keys",
  "the messages are made and read in different tasks and routers; a token of zero is drawn once in 2^32 times",
  S+"destination/lease_set.rs: LeaseSetManager::{create_database_store,create_database_lookup}", S+"netdb/query.rs: create_lease_set_query, create_router_info_query, create_router_exploration", S+"netdb/mod.rs: NetDb::{on_message,on_database_store,on_lease_set_lookup,on_router_info_lookup,on_router_exploration,publish_router_info}", S+"tunnel/garlic.rs: GarlicHandler::handle_message")
p("A published lease set is found",
  "From the bytes a destination publishes to the answer a client gets: once a floodfill has unpacked the store of a lease set, whoever looks the destination up there while the lease set is current, whatever else the floodfill did in between, is sent it through the tunnel their lookup names, and everyone who waits for that destination at the router that asked is given the lease set that was published. (Proved until the first of the times of expiration in the lease set, and while nobody else stores a lease set under the key: C141.)",
  "all lease sets, histories of the floodfill before and after the store, states of the router that asks, tunnels, times and keys",
  "spans the publisher, the floodfill, the asking router and the bytes between them, with any history at each",
  S+"destination/lease_set.rs: LeaseSetManager::create_database_store", S+"netdb/query.rs: create_lease_set_query", S+"netdb/mod.rs: NetDb::{on_message,on_lease_set_store,on_lease_set_lookup,on_database_store}", S+"i2np/database/store.rs: DatabaseStore", S+"tunnel/garlic.rs: GarlicHandler::handle_message")
p("Destinations talk with those of other implementations",
  "A destination of any implementation of the ECIES-X25519-AEAD-Ratchet specification can open a session with a client of this router, and the client with it. A request of the peer, whatever blocks it carries, is read; every answer the client sends has the tag of its number, can be opened by the peer with the keys of the specification and carries the message; then the peer's messages are read in whatever order they come and the client's can be read by the peer. The other way round, the client's request can be read by the peer and carries lease set and message, any of the answers the peer may send is read, and from then on both sides read each other. (Proved before the first ratchet and for messages among the first that are watched for. Violated for a request without database store: it is refused although its keys are right.)",
  "all keys, ephemeral keys, block lists, numbers of answers, answers chosen, numbers and orders of later messages, and states of the client without a session with the peer",
  "the peer is a different program: what counts is that the bytes are those of the specification for every key and every sequence of messages",
  S+"destination/session/mod.rs: SessionManager::{encrypt,decrypt}", S+"destination/session/context.rs: KeyContext", S+"destination/session/inbound.rs: InboundSession", S+"destination/session/outbound.rs: OutboundSession", S+"destination/session/session.rs: PendingSession, Session", S+"destination/session/tag_set.rs: TagSet", S+"i2np/garlic.rs")
p("Tunnels carry messages with routers of any implementation",
  "In each of its places in a tunnel the router works with routers of any implementation of the tunnel message specification. As owner of an outbound tunnel it sends messages that, once the other routers have each encrypted them as specified, the endpoint has in the clear, with the pieces of the message in order; as owner of an inbound tunnel it reads whatever a gateway put in the clear text, after any number of routers; as endpoint it reads what its step uncovers; as gateway it sends clear text of the specified form after its own step; as participant it does the specified step and passes the result on under the next router's id. The pieces of any cut of a message give the message when the last of them comes, in any order, with repetitions and with other fragments between them.",
  "all keys, numbers of routers, messages that fit, cuts, delivery instructions, paddings, IVs, numbers of parts in a message, orders of arrival",
  "the other routers are different programs: they may cut messages elsewhere, put several parts in one message and pad differently than this router does",
  S+"tunnel/hop/outbound.rs: OutboundTunnel::send_to_router, send_to_tunnel", S+"tunnel/hop/inbound.rs: InboundTunnel::handle_tunnel_data", S+"tunnel/transit/participant.rs: Participant::handle_tunnel_data", S+"tunnel/transit/outbound.rs: OutboundEndpoint::handle_tunnel_data", S+"tunnel/transit/inbound.rs: InboundGateway::handle_tunnel_gateway", S+"tunnel/fragment.rs: FragmentHandler", S+"i2np/tunnel/data.rs: TunnelDataBuilder, TunnelData, EncryptedTunnelData")
p("What a client wrote before it closed is delivered",
  "What a client wrote to a stream before it closed it, or before the peer closed its direction, is kept and sent again until the peer has acknowledged all of it; only then is the stream forgotten. (The code keeps the packets, and a task that ends because of its client has had them all acknowledged; but when the peer closes, it forgets the stream at the next acknowledgement, with whatever is unacknowledged or has not been sent.)",
  "every history of packets, reads, writes, timers, full channels and ends of either socket",
  "the loss needs a close that crosses data on its way; tests close streams that are idle",
  S+"sam/protocol/streaming/stream/active.rs: Stream::on_packet, shutdown, poll, InboundContext::can_close")
p("Each direction of a stream closes on its own",
  "A client that has stopped writing still receives what the peer goes on to send, and a peer that has stopped writing still receives what the client goes on to write. (The code gives the client nothing after it has stopped writing, not even the rest of a message given in part, and reads nothing of the client after the peer has stopped; until then what is given is what the peer wrote, in order and without a gap.)",
  "every history of the stream after the close, with any packets and any behaviour of the client's socket",
  "it is a statement about everything that may follow; the tests never send after a close",
  S+"sam/protocol/streaming/stream/active.rs: Stream::on_packet, shutdown, poll")
p("A stream whose peer has vanished ends",
  "A stream whose peer no longer answers is given up after a bounded number of retransmissions, and its client's socket is closed. (The code never gives up: without a packet of the peer, the loss of the path or the end of the session the task goes on for ever, also after the client has closed the stream or the session has asked it to shut down.)",
  "every history without an event from outside, of any length",
  "no test can wait for ever; that nothing ends the task is a statement about all histories",
  S+"sam/protocol/streaming/stream/active.rs: Stream::resend, shutdown, poll")
p("A client that accepts a stream is told whom it is from",
  "The first line that a client reads from an accepted or forwarded stream is the destination of the peer, to which it can connect in turn; then comes all that the peer sent, in order, beginning with what came before the client was there. (The code writes the hash of the destination, in base 64, in place of the destination: a `STREAM CONNECT` to what is in the line is refused. The order holds, and different peers have different lines.)",
  "all destinations, all data that came before the listener, all histories of the stream",
  "the existing tests compare the line with the same hash that the code writes; that no destination can be read from it is a statement about every destination",
  S+"sam/protocol/streaming/mod.rs: StreamManager::spawn_stream", S+"sam/protocol/streaming/stream/active.rs: Stream::new", S+"sam/parser.rs: SamCommand")
p("Streams open with peers of any implementation",
  "A SYN of any peer that follows the streaming specification, with a key of any kind, any options and any data, opens a stream; the answer of any such peer opens the stream that waits for it; and the router's own SYN and answer have the layout, flags and signature of the specification. The code accepts a SYN only if it repeats the hash of the addressee in the NACK field: peers that leave the field empty, as older implementations do, are ignored.",
  "every peer, key, signature scheme, choice of options, data and NACKs, and every state of the stream manager",
  "tests open streams between two instances of the same code, with the options that this code sets",
  S+"sam/protocol/streaming/mod.rs:StreamManager::on_synchronize", S+"sam/protocol/streaming/mod.rs:StreamManager::create_stream", S+"sam/protocol/streaming/packet.rs:PacketBuilder::build_and_sign")

p("Only the peer ends a stream",
  "A stream is closed or reset only by a packet that its peer has signed. The code checks no signature after the SYN: anyone who knows the number of a stream ends it with an unsigned RESET or CLOSE. What holds is that packets with other numbers do not reach the stream.",
  "every open stream, every state of its task and every sender",
  "tests send packets only from the peer, and never one without a signature where one is required",
  S+"sam/protocol/streaming/stream/active.rs:Stream::on_packet", S+"sam/protocol/streaming/mod.rs:StreamManager::on_packet")

p("A stream keeps to what its peer asks for",
  "A stream sends no packet larger than its peer takes, and none while the peer asks it to wait. The code reads neither the size nor the delay: it sends 1812 bytes of data at once whatever the peer asks for, although 1730 is the size of the specification. What holds is that no packet has more than 1812 bytes of data and that all packets under a number have the same data.",
  "every packet of the peer, every state and every history of the task",
  "tests use peers that ask for nothing",
  S+"sam/protocol/streaming/stream/active.rs:Stream::on_packet", S+"sam/protocol/streaming/stream/active.rs:Stream::packetize", S+"sam/protocol/streaming/stream/active.rs:MTU_SIZE")
p("Tests of tunnels tell whether they work, and tunnels that fail are no longer used",
  "A pool of tunnels tests them by sending itself a message through an outbound and an inbound tunnel. When both tunnels carry messages the test succeeds, it succeeds only if they do, and tunnels whose test fails are no longer used. Only the first holds: a test of working tunnels is one tunnel message that crosses both and is given to the test. But any garlic message with the number of the test ends it well, and the result of a test changes neither which tunnels the pool has nor which are used.",
  "every pair of tunnels of any length with any keys, every number of a test, every state of the pool, and every set of tests that end at a poll",
  "A test runs one pair of mock tunnels; that a failed test changes nothing about the use of tunnels is about every state of a pool and every later poll.",
  S+"tunnel/pool/mod.rs: TunnelPool::maintain_pool, poll", S+"tunnel/pool/context.rs: TunnelPoolContext, TunnelMessageRecipient", S+"tunnel/pool/selector.rs: register_tunnel_test_failure, register_tunnel_test_success")
p("Datagrams are exchanged with clients of any implementation",
  "A datagram in the format of the specification, written by any client, is given to the SAM client with the destination that it is from, and a datagram of a SAM client is in this format. This holds for raw datagrams and for repliable ones from destinations that sign with Ed25519 or P-256, whatever their key for encryption and however they were compressed. Repliable datagrams from destinations with other signature types and datagrams of the newer formats (protocols 19 and 20) are dropped.",
  "every destination of the specification, every signature, data, ports and compressed form, and every datagram of a client",
  "tests send datagrams only between two clients of this program",
  S+"sam/protocol/datagram/mod.rs: DatagramManager::make_datagram, on_datagram", S+"i2cp/payload.rs: I2cpPayload::decompress, I2cpPayloadBuilder::build", S+"primitives/destination.rs: Destination::parse_frame")
p("A stream opens across the network",
  "Two clients, on two routers, that know nothing of each other apart from the lease set of the one that is called: a stream that the first one requests is opened on both sides, for the destination that called and the destination that was called. The SYN is carried in the request for a garlic session through the tunnels of both, the SYN-ACK in the reply, the next packet establishes the session, and every packet after that gets to the stream manager of the other client as it was sent, with its ports.",
  "all tunnels (any number of hops, keys, padding), all orders, delays and mixtures with other traffic on them, all destinations, stream ids, ports, keys and random numbers of both clients, all packets after the opening",
  "Needs tunnels of several routers, two sessions and two clients, with every order in which pieces may arrive; tests use a handful of hops in memory and stop at the boundary of a module.",
  S+"destination/mod.rs: Destination::send_message_inner, decrypt_message", S+"destination/session/mod.rs: SessionManager::encrypt, decrypt", S+"sam/session.rs: SamSession::on_inbound_message", S+"sam/protocol/streaming/mod.rs: StreamManager::create_stream, on_synchronize, register_listener")
p("Two streams and the network between them",
  "Two streams of this implementation that send to each other, over a network that may lose, repeat, delay and reorder their packets, while each client writes, reads and closes as it likes: what each client has read is at any time a beginning of what the other one has written. A stream whose client has closed it ends once the other end has taken everything, because its CLOSE is acknowledged.",
  "all histories of the two tasks: writes, reads, partial writes, closes, shutdowns, timers, full channels, at both ends in every interleaving, and every order, loss and repetition of the packets that either has sent",
  "The histories of two concurrent tasks and a network are unbounded; a test runs one schedule, with a peer written by hand that acknowledges whatever it likes.",
  S+"sam/protocol/streaming/stream/active.rs: Stream::poll, on_packet, shutdown, handle_acks, InboundContext::handle_packet")
p("A SAM session is established when the network is ready and has tunnels for it",
  "A request for a SAM session is answered with success only once the network database is ready and the session has at least one inbound and one outbound tunnel that was built and has not expired. If the network database, the tunnel manager and the pool keep working the session is established; if one of them is gone the request is refused.",
  "every history, finite or endless, of full channels, answers, dropped requests, tunnels built and expired, and a pool that is closed",
  "depends on the interleaving of four tasks; liveness over endless schedules",
  S+"sam/pending/session.rs: PendingSamSession::run", S+"netdb/handle.rs: NetDbHandle::wait_until_ready", S+"tunnel/handle.rs: TunnelManagerHandle::create_tunnel_pool")
p("The packets of a stream carry its ports",
  "All packets of a stream that a client opens come from the port and go to the port that its command gives, 0 if it gives none; all packets of a stream that a remote opens come from the port that was called and go to the port that called.",
  "every history of streams opened by clients and remotes, resent and accepted, with and without listeners",
  "holds for every interleaving of any number of streams, over their whole lives",
  S+"sam/protocol/streaming/mod.rs: StreamManager::{create_stream,on_synchronize,on_packet,on_listener_ready,poll_next}", S+"sam/protocol/streaming/stream/active.rs: Stream::new")
p("A message of an I2CP client is not sent after its time",
  "A client gives with a message the time until which it is to be sent; the router drops the message when this time has passed. The code ignores it: a message that has expired when the client gives it is sent, and so is one that has expired while it waited for the lease set of its destination. What holds is that a message is sent only when the client gives it or when the lease set that it waited for is found, and that no other message is ever sent.",
  "every session, every history of messages and answers and every time at which they happen",
  "that a message is never sent late is about every delay between the request of a client and the answer of the network",
  S+"i2cp/session.rs: I2cpSession::on_message", S+"i2cp/message/mod.rs: Message::SendMessageExpires")
p("The tunnels of a client are as many and as long as it asks for",
  "A client says with its options how many tunnels it wants in each direction and how many hops they have; it gets 3 tunnels of 2 hops if it does not say. For an I2CP client this is so, whichever routers are known and whatever they answer, if it wants tunnels of 1 to 8 hops. A client that wants tunnels without hops (as the specification allows), or more than 8, gets no tunnel at all, and the options of a SAM client are ignored: its tunnels always have 2 hops.",
  "all options, all numbers below 2^64, all sets of known routers and random choices, all answers of the routers",
  "Whether a tunnel has the right length depends on the selection of routers, the request and the answers, for every number that can be asked for; tests use the defaults.",
  S+"tunnel/pool/mod.rs: TunnelPoolConfig::from, TunnelPool::maintain_pool", S+"i2cp/pending.rs: PendingI2cpSession::on_message", S+"sam/mod.rs: SamServer::poll", S+"tunnel/pool/selector.rs: select_hops", S+"tunnel/hop/pending.rs: create_tunnel, try_build_tunnel")
p("A tunnel pool keeps listeners only for messages that are waited for",
  "When a build of a tunnel or a test of a tunnel ends, for whatever reason, the tunnel pool forgets the listener for its message: at any time there are listeners only for the message ids of builds and tests that are still running. The code forgets the listener when the answer arrives, when the request cannot be made or sent and when the answer to a build is too late, but not when the first router of a build cannot be dialled, and not when the message of a test is too late. So every such build and every such test leaves a listener for ever.",
  "every history of builds, tests, results of dials, timeouts and messages; every number of failed dials and late tests",
  "a test sees one build or one test of a tunnel; the listeners that stay are few in a short run and matter only after the pool has run for long",
  S+"tunnel/pool/mod.rs: maintain_pool", S+"tunnel/pool/listener.rs: add_pending_tunnel", S+"tunnel/pool/context.rs: add_listener, remove_listener")
p("A SAM client is answered before it has a session as it is afterwards",
  "On a connection that has not created a session yet, each command that does not end this stage (the greeting, lookups of names, requests for new keys) is answered by exactly one line in the form of the SAM specification, in the order of the commands, and a name that can be found is found. The last part does not hold: every name is answered with KEY_NOT_FOUND, also one whose destination a session of the same router finds at once, although the specification allows lookups without a session.",
  "every history of commands and polls; every name, session and encoding of keys",
  "a test asks for one name that does not exist and sees the right answer",
  S+"sam/pending/connection.rs: PendingSamConnection", S+"sam/session.rs: on_naming_lookup")
p("An SSU2 session can send every message it is given",
  "A message that the router sends to another router over an established SSU2 session is cut into packets without the session failing. This holds for all messages with a payload of 1 to 65526 bytes, and so for every message that came from the network: with a short header, for the gateway of a tunnel, or in a tunnel with less than 65536 bytes. It does not hold for messages without a payload and for those with 65527 to 65536 bytes, which end the session with a panic; of longer ones only a part is sent.",
  "every message, every received byte string",
  "the sizes at the limits of the length field are not tried by tests, and that no forwarded message reaches them is a fact about all inputs of several parsers",
  S+"transport/ssu2/session/active/mod.rs: send_message", S+"i2np/mod.rs: parse_short, serialize_short, parse_standard", S+"i2np/tunnel/gateway.rs: TunnelGateway::parse")
p("A stream ends only for a reason",
  "A stream goes on until there is a reason to end it: a RESET or CLOSE of the peer, the client's end of its socket or of its session together with the peer's acknowledgements, a packet with data whose number is more than 512 beyond the next one, the loss of the path or the end of the manager. It does not hold in two cases, where the task of the stream panics: a SYN that comes again while the channel to the session is full, and, in builds that check overflows, a packet with data after the number 2^32-1.",
  "every history of packets, socket events, timers and full channels, and every number the stream begins with",
  "a test runs a few packets through a stream; that no other sequence of packets, timers and full channels ends it is a claim about all histories",
  S+"sam/protocol/streaming/stream/active.rs: Stream::poll, Stream::on_packet, Stream::shutdown, InboundContext::handle_packet")
p("Streams of one session do not disturb each other",
  "What happens on one stream of a SAM session has no effect on its other streams: each is in the state that it would have if it were the only one, and the end of one does not end the others. It holds as long as no stream panics. If one does, the session and all its streams end with it: after a SYN that comes again while the channel to the session is full, and in builds that check overflows after two packets of a peer, one with the number 2^32-1 before the client has accepted the stream and one with data later.",
  "every history of any number of streams, and every packet that peers may send",
  "interleavings of several streams and the failure of one of them are not tried by tests, which run one or two streams without failures",
  S+"sam/protocol/streaming/mod.rs: StreamManager::poll_next, spawn_stream", S+"sam/session.rs: SamSession::poll", S+"sam/protocol/streaming/stream/pending.rs: PendingStream::on_packet_inner", "emissary-util/src/runtime/tokio.rs: TokioJoinSet::poll_next")
here=os.path.dirname(os.path.abspath(__file__))
with open(os.path.join(here,"..","properties.jsonl"),"w") as f:
    for x in P: f.write(json.dumps(x, ensure_ascii=False)+"\n")
print(len(P))

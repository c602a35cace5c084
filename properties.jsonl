{"id": "C01", "title": "Stream bytes arrive in order, without gaps, duplicates or corruption", "statement": "Whatever bytes one end of an I2P stream writes, the bytes the other end's application reads are at every moment a prefix of the bytes written, no matter how the tunnels between them drop, duplicate, delay or reorder packets.", "quantifier": "every written byte string, every split into writes, every network behaviour (finite sequence of deliveries of sent packets with any loss, duplication and reordering)", "why_tests_cant": "the schedule space of loss/duplication/reordering is unbounded; a test fixes one schedule", "anchors": ["emissary-core/src/sam/protocol/streaming/stream/active.rs: InboundContext::handle_packet, Stream::packetize"]}
{"id": "C02", "title": "Stream bytes all arrive once every packet has arrived", "statement": "If every data packet of the stream has reached the receiver at least once, in whatever order and however often (and none ran further ahead than the receiver's look-ahead limit), the application can read exactly the bytes written: nothing stays stuck in the reorder buffer.", "quantifier": "every written byte string and every arrival order covering all packets", "why_tests_cant": "needs a liveness-style argument over all arrival orders", "anchors": ["emissary-core/src/sam/protocol/streaming/stream/active.rs: InboundContext::handle_packet"]}
{"id": "C03", "title": "A stream acknowledges only packets it has received", "statement": "In every packet a stream sends back, each sequence number it acknowledges (at most ack-through and not listed as NACK) belongs to a packet the stream really received.", "quantifier": "every sequence of received packets", "why_tests_cant": "a false ack only shows up as silent data loss under a particular loss pattern", "anchors": ["emissary-core/src/sam/protocol/streaming/stream/active.rs: InboundContext::{handle_packet,missing}, Stream::on_packet"]}
{"id": "C04", "title": "Look-ahead limit on sequence numbers", "statement": "A packet is refused exactly when its sequence number is more than 513 beyond the highest one seen; a refused packet ends the stream without being recorded, an accepted one adds at most 512 missing sequence numbers, and a peer running the same code never triggers the limit whatever the network does.", "quantifier": "every stream state and every sequence number", "why_tests_cant": "attackers choose the sequence number; tests sample a few", "anchors": ["emissary-core/src/sam/protocol/streaming/stream/active.rs: InboundContext::handle_packet, MAX_WINDOW_LOOKAHEAD"]}
{"id": "C05", "title": "Congestion window stays within 1..=128 and bounds unacknowledged packets", "statement": "At every moment of a stream's life its congestion window is between 1 and 128 packets and the number of packets sent but not yet acknowledged never exceeds 128.", "quantifier": "every history of writes, acks, nacks and retransmission timeouts", "why_tests_cant": "invariant over unbounded histories", "anchors": ["emissary-core/src/sam/protocol/streaming/stream/active.rs: handle_acks, packetize, resend, MAX_WINDOW_SIZE"]}
{"id": "C06", "title": "Written data is retained until the peer acknowledges it", "statement": "Every data packet created from application writes stays queued (sent-unacknowledged or waiting for window) with its original bytes until the peer acknowledges its sequence number, in exactly one of the two queues; only written data is ever queued, and an acknowledgement releases exactly the sent packets it covers.", "quantifier": "every history of writes, acks, nacks and timeouts", "why_tests_cant": "loss of a queued packet needs a specific interleaving of acks, nacks and window limits", "anchors": ["emissary-core/src/sam/protocol/streaming/stream/active.rs: packetize, handle_acks, resend"]}
{"id": "C07", "title": "A close request never discards data that was sent before it", "statement": "When the remote closes a stream, the local application still receives every byte the remote sent before the close, even if the close overtakes data packets.", "quantifier": "every interleaving of data packets and the close packet", "why_tests_cant": "depends on packet reordering around the close", "anchors": ["emissary-core/src/sam/protocol/streaming/stream/active.rs: InboundContext::can_close, Stream::on_packet, poll"]}
{"id": "C08", "title": "Data received before accept is delivered in order and without gaps", "statement": "Packets received on an inbound stream before the application accepts it are handed over as a gap-free prefix of what the remote sent, and only received packets are acknowledged.", "quantifier": "every arrival order of the first packets of a stream", "why_tests_cant": "depends on reordering before accept", "anchors": ["emissary-core/src/sam/protocol/streaming/stream/pending.rs: PendingStream::on_packet"]}
{"id": "C09", "title": "STREAM ACCEPT and STREAM FORWARD are mutually exclusive", "statement": "A SAM session never has accept sockets and a forward socket registered at the same time, and a listener that failed to register does not disturb the ones already registered.", "quantifier": "every history of ACCEPT, FORWARD, status-write completion and failures, and inbound connections", "why_tests_cant": "races between registration, status writes and inbound streams", "anchors": ["emissary-core/src/sam/protocol/streaming/listener.rs: StreamListener::{register_listener,pop_socket,poll_next}"]}
{"id": "C10", "title": "Stream packets are delivered only to the stream they address", "statement": "A non-SYN packet is delivered to the stream whose receive id it carries or dropped; a packet with an unknown id never creates or alters a stream; and an inbound stream is created only by a SYN with a valid signature by the destination it names.", "quantifier": "every table of streams and every packet", "why_tests_cant": "needs all stream tables and packets", "anchors": ["emissary-core/src/sam/protocol/streaming/mod.rs: StreamManager::{on_packet,on_synchronize}"]}
{"id": "C11", "title": "Streaming packet header round-trips", "statement": "Parsing the bytes the packet builder emits returns exactly the stream ids, sequence number, ack-through, nack list, resend delay, flags, options and payload given to the builder.", "quantifier": "every combination of header fields, nack list up to 255 entries, payload", "why_tests_cant": "field combinations are unbounded", "anchors": ["emissary-core/src/sam/protocol/streaming/packet.rs: Packet::parse, PacketBuilder::build"]}
{"id": "C12", "title": "Tunnel fragmentation and reassembly is lossless", "statement": "Splitting any I2NP message into tunnel-data messages and feeding the fragments to the reassembler in any order, with any duplicates of follow-on fragments before completion, yields exactly the original message exactly when the last distinct fragment arrives.", "quantifier": "every message that fits in 64 fragments, every arrival order", "why_tests_cant": "fragment counts, sizes and orders are unbounded for testing", "anchors": ["emissary-core/src/i2np/tunnel/data.rs: TunnelDataBuilder::build", "emissary-core/src/tunnel/fragment.rs: FragmentHandler"]}
{"id": "C13", "title": "Every tunnel data message has the fixed size", "statement": "Every message the tunnel data builder emits has exactly the 1028-byte body (4-byte tunnel id, 16-byte IV, 1008 encrypted bytes), so message sizes leak nothing about the payload.", "quantifier": "every payload and delivery instruction", "why_tests_cant": "off-by-one at any payload length breaks it", "anchors": ["emissary-core/src/i2np/tunnel/data.rs: TunnelDataBuilder::build"]}
{"id": "C14", "title": "Reassembler emits a message only when every fragment is present", "statement": "The tunnel reassembler hands over a message only if it holds the first fragment and all follow-on fragments 1..n where n is the one marked last, concatenated in order.", "quantifier": "every sequence of fragments, including adversarial ones", "why_tests_cant": "adversarial fragment numberings", "anchors": ["emissary-core/src/tunnel/fragment.rs: FragmentHandler, Fragment::is_ready"]}
{"id": "C15", "title": "Tunnel data payload framing is unambiguous", "statement": "The outbound endpoint (and inbound gateway owner) locates the payload of a tunnel data message exactly where the gateway put it: after non-zero padding and the first zero byte, and rejects the message if the checksum over payload and IV does not match.", "quantifier": "every padding, payload and checksum", "why_tests_cant": "padding content is random", "anchors": ["emissary-core/src/tunnel/transit/outbound.rs: find_payload_start", "emissary-core/src/i2np/tunnel/data.rs"]}
{"id": "C16", "title": "I2NP short-header framing round-trips", "statement": "Parsing the bytes of an I2NP message built with the short (transport) header returns the same type, id, expiration second and payload and leaves any following bytes untouched.", "quantifier": "every message whose payload fits the 16-bit size, any trailing bytes", "why_tests_cant": "payload length boundaries", "anchors": ["emissary-core/src/i2np/mod.rs: MessageBuilder::build, Message::parse_short"]}
{"id": "C17", "title": "I2NP standard-header framing round-trips", "statement": "Parsing the bytes of an I2NP message built with the standard (tunnel) header returns the same type, id, expiration and payload.", "quantifier": "every message whose payload fits the 16-bit size, any trailing bytes", "why_tests_cant": "payload length boundaries", "anchors": ["emissary-core/src/i2np/mod.rs: MessageBuilder::build, Message::parse_standard"]}
{"id": "C18", "title": "I2NP payload sizes are never silently truncated on the wire", "statement": "A message too large for the 16-bit size field of its header is refused rather than emitted with a wrapped size.", "quantifier": "every payload length", "why_tests_cant": "needs >64 KiB inputs nobody tests", "anchors": ["emissary-core/src/i2np/mod.rs: MessageBuilder::build"]}
{"id": "C19", "title": "TunnelGateway, DeliveryStatus and search-reply messages round-trip", "statement": "For TunnelGateway, DeliveryStatus and DatabaseSearchReply, parsing the serialized message returns the original message.", "quantifier": "every message value whose variable part fits its length field", "why_tests_cant": "value space unbounded", "anchors": ["emissary-core/src/i2np/tunnel/gateway.rs", "emissary-core/src/i2np/delivery_status.rs", "emissary-core/src/i2np/database/search_reply.rs"]}
{"id": "C20", "title": "Database lookup round-trips", "statement": "Parsing a serialized database lookup returns the same key, lookup kind, reply route, excluded peers (at most 512).", "quantifier": "every lookup value", "why_tests_cant": "value space unbounded", "anchors": ["emissary-core/src/i2np/database/lookup.rs: DatabaseLookup, DatabaseLookupBuilder"]}
{"id": "C21", "title": "Database store round-trips", "statement": "Parsing a serialized database store returns the same key, store kind, reply route and payload boundaries.", "quantifier": "every store value with well-formed payload", "why_tests_cant": "value space unbounded", "anchors": ["emissary-core/src/i2np/database/store.rs: DatabaseStore, DatabaseStoreBuilder"]}
{"id": "C22", "title": "Garlic message blocks round-trip", "statement": "Parsing the garlic message the builder produces returns the same blocks in the same order (date-time, cloves with delivery instructions, next-key, ack, ack-request, padding).", "quantifier": "every list of blocks whose sizes fit", "why_tests_cant": "block sequences unbounded", "anchors": ["emissary-core/src/i2np/garlic.rs: GarlicMessage::parse, GarlicMessageBuilder::build"]}
{"id": "C23", "title": "Short tunnel build records round-trip and have a fixed size", "statement": "Every short build record is 154 bytes whatever its content, and parsing it returns the tunnel ids, next hop, role and next message id it was built with, whatever the random padding.", "quantifier": "every record value and padding", "why_tests_cant": "value space unbounded", "anchors": ["emissary-core/src/i2np/tunnel/build/short.rs: TunnelBuildRecordBuilder::serialize, TunnelBuildRecord::parse"]}
{"id": "C24", "title": "I2P strings round-trip", "statement": "Parsing a serialized I2P string (at most 255 bytes) returns the same string and leaves following bytes untouched.", "quantifier": "every string and trailing bytes", "why_tests_cant": "length boundary at 255/256", "anchors": ["emissary-core/src/primitives/string.rs: Str"]}
{"id": "C25", "title": "I2P mappings round-trip", "statement": "Parsing a serialized list of key/value mappings returns the same pairs in the same order, consuming exactly the announced bytes.", "quantifier": "every list of mappings whose total size fits 16 bits, any trailing bytes", "why_tests_cant": "list sizes unbounded", "anchors": ["emissary-core/src/primitives/mapping.rs: Mapping"]}
{"id": "C26", "title": "Destination parsing is the inverse of its serialization", "statement": "A parsed destination re-serializes to exactly the bytes it was parsed from, its reported length is the consumed length, and its verifying key is the one at the certified offset.", "quantifier": "every byte string accepted by the parser", "why_tests_cant": "byte-level input space", "anchors": ["emissary-core/src/primitives/destination.rs: Destination"]}
{"id": "C27", "title": "Router identity parsing keeps the wire image", "statement": "A parsed router identity consumes exactly 391 bytes, accepts only X25519/Ed25519 key certificates and serializes back to the same bytes.", "quantifier": "every byte string", "why_tests_cant": "byte-level input space", "anchors": ["emissary-core/src/primitives/router_identity.rs"]}
{"id": "C28", "title": "Lease set round-trips", "statement": "Parsing a serialized LeaseSet2 returns the same destination, publication and expiry time, encryption keys and leases, provided its signature verifies.", "quantifier": "every lease set value", "why_tests_cant": "value space unbounded; expiry offset truncation", "anchors": ["emissary-core/src/primitives/lease_set.rs: LeaseSet2, LeaseSet2Header, Lease"]}
{"id": "C29", "title": "Lease set is accepted only with a valid signature over all preceding bytes", "statement": "A lease set is accepted only if the signature verifies, under the key of the destination inside it (or its valid transient key), over the type byte and every preceding byte.", "quantifier": "every byte string and signature oracle", "why_tests_cant": "adversarial inputs", "anchors": ["emissary-core/src/primitives/lease_set.rs: LeaseSet2::parse"]}
{"id": "C30", "title": "NTCP2 session message blocks round-trip", "statement": "Parsing the plaintext of an NTCP2 frame made of any sequence of blocks yields those blocks in order; every parse consumes the whole frame or fails.", "quantifier": "every sequence of blocks", "why_tests_cant": "block sequences unbounded", "anchors": ["emissary-core/src/transport/ntcp2/message.rs: MessageBlock"]}
{"id": "C31", "title": "NTCP2 handshake options round-trip", "statement": "Parsing serialized initiator and responder handshake options returns the same fields.", "quantifier": "every field combination", "why_tests_cant": "value space", "anchors": ["emissary-core/src/transport/ntcp2/options.rs"]}
{"id": "C32", "title": "NTCP2 frame reader is independent of TCP segmentation", "statement": "The frames an NTCP2 session decodes depend only on the byte stream received, not on how TCP split it into reads, and a frame that fails to parse does not affect how later frames are delimited.", "quantifier": "every byte stream and every segmentation into reads", "why_tests_cant": "segmentations are unbounded", "anchors": ["emissary-core/src/transport/ntcp2/session/active.rs: Ntcp2Session::poll"]}
{"id": "C33", "title": "NTCP2 length obfuscation stays synchronised", "statement": "The receiver's de-obfuscated frame lengths equal the lengths the sender obfuscated, for every frame of the session.", "quantifier": "every sequence of frame lengths and every keyed hash", "why_tests_cant": "unbounded session length", "anchors": ["emissary-core/src/crypto/siphash.rs: SipHash"]}
{"id": "C34", "title": "AEAD nonces never repeat under one key", "statement": "A cipher state never encrypts two messages with the same nonce; on exhaustion it reports an error instead of wrapping.", "quantifier": "every number of encryptions", "why_tests_cant": "2^64 operations", "anchors": ["emissary-core/src/crypto/chachapoly.rs: ChaChaPoly, Nonce"]}
{"id": "C35", "title": "SSU2 acks cover only received packets", "statement": "An SSU2 ack block (ack-through, count, ranges) built by the receiver acknowledges only packet numbers that were received.", "quantifier": "every sequence of received packet numbers", "why_tests_cant": "wide gaps and long runs needed to fail", "anchors": ["emissary-core/src/transport/ssu2/session/active/ack.rs: RemoteAckManager"]}
{"id": "C36", "title": "SSU2 fragment reassembly is lossless", "statement": "Fragments of one I2NP message delivered in any order with duplicates yield exactly the original message once, when all have arrived.", "quantifier": "every message, fragmentation and arrival order", "why_tests_cant": "orders unbounded", "anchors": ["emissary-core/src/transport/ssu2/session/active/fragment.rs: FragmentHandler"]}
{"id": "C37", "title": "SSU2 duplicate filter never reports a fresh message as duplicate and remembers recent ones", "statement": "A message id is reported as duplicate iff it was seen since the older of the two filter generations began.", "quantifier": "every sequence of ids and decay events", "why_tests_cant": "history-dependent", "anchors": ["emissary-core/src/transport/ssu2/session/active/duplicate.rs: DuplicateFilter"]}
{"id": "C38", "title": "SSU2 block parsing accepts exactly well-formed block sequences", "statement": "Parsing the serialization of a sequence of SSU2 blocks gives the same blocks, and no input makes the parser panic or read outside the datagram.", "quantifier": "every byte string / block sequence", "why_tests_cant": "adversarial datagrams", "anchors": ["emissary-core/src/transport/ssu2/message.rs: Block"]}
{"id": "C39", "title": "Bloom filter has no false negatives", "statement": "An element inserted into the transit tunnels' replay filter is always reported as present afterwards until the filter decays.", "quantifier": "every insertion history and hash function", "why_tests_cant": "history-dependent", "anchors": ["emissary-core/src/bloom.rs: BloomFilter"]}
{"id": "C40", "title": "XOR distance is a metric and identifies keys", "statement": "Kademlia distance is symmetric, zero exactly for equal keys and satisfies the unidirectionality property used to rank routers.", "quantifier": "every pair/triple of 256-bit keys", "why_tests_cant": "2^512 pairs", "anchors": ["emissary-core/src/netdb/types.rs: Distance, Key"]}
{"id": "C41", "title": "K-buckets are bounded and never hold a router twice", "statement": "Each k-bucket holds at most 20 routers and no router twice, whatever sequence of insertions and lookups happens.", "quantifier": "every history", "why_tests_cant": "history-dependent", "anchors": ["emissary-core/src/netdb/bucket.rs: KBucket"]}
{"id": "C42", "title": "Closest-router lookups return distinct routers sorted by distance", "statement": "The routers returned by a closest-router lookup are distinct, none of the ignored ones appear and they are sorted by XOR distance to the key.", "quantifier": "every routing table and key", "why_tests_cant": "table/key space", "anchors": ["emissary-core/src/netdb/routing_table.rs, netdb/dht.rs"]}
{"id": "C43", "title": "Transit tunnel limit is never exceeded", "statement": "A router never participates in more transit tunnels than configured, accepts none while shutting down or when transit is disabled, and every rejected request is answered with the bandwidth-reject code.", "quantifier": "every history of build requests, expirations and shutdown", "why_tests_cant": "history-dependent", "anchors": ["emissary-core/src/tunnel/transit/mod.rs: TransitTunnelManager"]}
{"id": "C44", "title": "A tunnel id is owned by at most one transit tunnel", "statement": "Adding a tunnel under an id in use is refused without disturbing the existing owner, and messages are routed to the tunnel that owns the id or rejected.", "quantifier": "every history of tunnel registrations and removals", "why_tests_cant": "history-dependent", "anchors": ["emissary-core/src/tunnel/routing_table.rs: RoutingTable"]}
{"id": "C45", "title": "Tunnel build replies reach their listener exactly once", "statement": "A listener registered for a message id receives the first matching message and no other; afterwards the id is free again.", "quantifier": "every history of registrations and messages", "why_tests_cant": "history-dependent", "anchors": ["emissary-core/src/tunnel/routing_table.rs: insert_listener, route_listener_message"]}
{"id": "C46", "title": "Layered tunnel encryption cancels out", "statement": "Data sent through an outbound tunnel leaves the endpoint in clear after each hop adds one layer, and data arriving from an inbound tunnel is recovered by the owner after removing one layer per hop, for any number of hops.", "quantifier": "every tunnel length, keys and block ciphers that are permutations", "why_tests_cant": "all hop counts and keys", "anchors": ["emissary-core/src/tunnel/noise.rs: TunnelKeys", "emissary-core/src/tunnel/hop/{inbound,outbound}.rs"]}
{"id": "C47", "title": "Tunnel participation counters are exact", "statement": "The per-router participation counts used to avoid over-using a router equal the number of active tunnels containing that router, at every moment.", "quantifier": "every history of tunnel additions and removals", "why_tests_cant": "history-dependent", "anchors": ["emissary-core/src/tunnel/pool/selector.rs: ExploratorySelector::{add_tunnel,remove_tunnel}"]}
{"id": "C48", "title": "Selected tunnel hops are distinct and in distinct subnets", "statement": "A tunnel never contains the same router twice nor two routers in the same /16 subnet.", "quantifier": "every router set and selection randomness", "why_tests_cant": "random selection", "anchors": ["emissary-core/src/tunnel/pool/selector.rs: select_hops, group_by_subnet"]}
{"id": "C49", "title": "Router reachability profile reflects recent failures", "statement": "A router is treated as unreachable iff its last dial failure is recent, and as declining iff its last decline is recent.", "quantifier": "every profile and time", "why_tests_cant": "time-dependent", "anchors": ["emissary-core/src/profile.rs: Profile::is_unreachable, has_recently_declined"]}
{"id": "C50", "title": "Every known reachable router is selectable from some profile bucket", "statement": "Building the profile storage places every usable router with a profile in exactly one bucket.", "quantifier": "every router and profile set", "why_tests_cant": "set-dependent", "anchors": ["emissary-core/src/profile.rs: ProfileStorage::new"]}
{"id": "C51", "title": "Routing paths never use expired or removed tunnels", "statement": "A routing path handed out by the path handle uses an outbound tunnel that is currently registered and an inbound tunnel with enough remaining life, prefers healthy tunnels over expiring ones over failing ones, and is dropped when its tunnels expire.", "quantifier": "every history of tunnel events and path requests", "why_tests_cant": "history-dependent", "anchors": ["emissary-core/src/destination/routing_path.rs: RoutingPathHandle"]}
{"id": "C52", "title": "Message dispatch delivers every inbound message to exactly one subsystem in order", "statement": "A batch of I2NP messages from a router is partitioned between the tunnel and network-database subsystems, each message to exactly one and in arrival order.", "quantifier": "every batch", "why_tests_cant": "batch contents unbounded", "anchors": ["emissary-core/src/subsystem.rs: SubsystemHandle::dispatch_messages"]}
{"id": "C53", "title": "Graceful shutdown completes exactly when every subsystem has finished", "statement": "Shutdown is reported complete iff it was requested and every registered subsystem acknowledged; a second request forces it.", "quantifier": "every interleaving of requests and acknowledgements", "why_tests_cant": "interleavings", "anchors": ["emissary-core/src/shutdown.rs"]}
{"id": "C54", "title": "Session tags are single use", "statement": "A garlic session tag decrypts at most one message; replaying a message with a consumed tag fails.", "quantifier": "every history of messages", "why_tests_cant": "history-dependent", "anchors": ["emissary-core/src/destination/session/{mod,session}.rs"]}
{"id": "C55", "title": "Tag set keys and tag indices never repeat", "statement": "Within one tag set every entry has a fresh strictly increasing index, and generation stops with an error rather than wrapping.", "quantifier": "every number of entries, any KDF", "why_tests_cant": "65535 entries", "anchors": ["emissary-core/src/destination/session/tag_set.rs: TagSet::next_entry"]}
{"id": "C56", "title": "DH ratchet key ids advance in lock-step", "statement": "Both ends of a session derive the same tag-set id for each completed DH ratchet and ids never wrap past the protocol maximum.", "quantifier": "every number of ratchets", "why_tests_cant": "32767 ratchets", "anchors": ["emissary-core/src/destination/session/tag_set.rs: handle_next_key"]}
{"id": "C57", "title": "Router infos and router addresses round-trip", "statement": "Serializing a router info (identity, publication time, addresses, options) and parsing the result returns the same identity, publication time, addresses and options.", "quantifier": "every router info within the wire format's size limits, any signature scheme", "why_tests_cant": "unbounded addresses and options", "anchors": ["emissary-core/src/primitives/router_info.rs: RouterInfo::{serialize,parse}", "emissary-core/src/primitives/router_address.rs: RouterAddress"]}
{"id": "C58", "title": "Router infos are accepted only when signed by their own identity", "statement": "If a router info is accepted then its last 64 bytes are a valid signature, under the signing key in the router info itself, of every byte before them.", "quantifier": "every byte string", "why_tests_cant": "all inputs, any signature scheme", "anchors": ["emissary-core/src/primitives/router_info.rs: RouterInfo::parse"]}
{"id": "C59", "title": "Transient signing keys are accepted only when certified and unexpired", "statement": "A transient key in a streaming packet or datagram is used only if the destination signed it and it has not expired; a certified unexpired key is always accepted.", "quantifier": "every byte string, destination and time", "why_tests_cant": "all inputs", "anchors": ["emissary-core/src/primitives/offline_signature.rs: OfflineSignature::parse_frame"]}
{"id": "C60", "title": "Lease set liveness", "statement": "A lease set is treated as live iff its header has not expired and it has some unexpired lease; the reported expiration is the earliest lease expiration.", "quantifier": "every lease set and time", "why_tests_cant": "unbounded leases, time", "anchors": ["emissary-core/src/primitives/lease_set.rs: LeaseSet2::{is_expired,expires}"]}
{"id": "C61", "title": "Unsupported garlic blocks are ignored", "statement": "A garlic message block of a kind the router does not support is skipped and has no effect on how the other blocks of the message are processed.", "quantifier": "every message and every unsupported block at every position", "why_tests_cant": "all messages and positions", "anchors": ["emissary-core/src/i2np/garlic.rs: GarlicMessage::parse_frame"]}
{"id": "C62", "title": "Every well-formed variable build record is understood", "statement": "A 464-byte variable tunnel build record with any options mapping that fits the record is parsed into the fields its creator wrote.", "quantifier": "every record, options and padding", "why_tests_cant": "all option sizes", "anchors": ["emissary-core/src/i2np/tunnel/build/variable.rs: TunnelBuildRecord::parse_frame"]}
{"id": "C63", "title": "Outbound streams connect only to the requested destination", "statement": "When a client is told its stream is connected, the answer came from the destination it asked for.", "quantifier": "every history of connection requests and packets from any destinations", "why_tests_cant": "adversarial packets", "anchors": ["emissary-core/src/sam/protocol/streaming/mod.rs: StreamManager::on_synchronize"]}
{"id": "C64", "title": "A stream is unregistered only when it ends or its own session is removed", "statement": "Once open, a stream keeps receiving its packets until it finishes itself or the session of its destination is removed; events about other streams never unregister it.", "quantifier": "every history of packets, completions and session removals", "why_tests_cant": "id reuse across streams", "anchors": ["emissary-core/src/sam/protocol/streaming/mod.rs: StreamManager::{remove_session,poll_next}"]}
{"id": "C65", "title": "The stream handshake completes between two endpoints", "statement": "The SYN one endpoint sends is accepted by the endpoint it is addressed to, with or without a waiting listener, and its SYN-ACK opens the stream at the initiator.", "quantifier": "every id, key and signature scheme that verifies its own signatures", "why_tests_cant": "all states and keys", "anchors": ["emissary-core/src/sam/protocol/streaming/mod.rs: StreamManager::{create_stream,on_synchronize}", "emissary-core/src/sam/protocol/streaming/stream/pending.rs: PendingStream::new"]}
{"id": "C66", "title": "Stream manager shutdown", "statement": "After shutdown is requested no new stream is opened, and the manager reports that it has shut down as soon as the last stream has ended (right away if there is none).", "quantifier": "every history and completion order", "why_tests_cant": "interleavings", "anchors": ["emissary-core/src/sam/protocol/streaming/mod.rs: StreamManager::{shutdown,poll_next}"]}
{"id": "C67", "title": "A retried SYN is answered", "statement": "A remote whose SYN-ACK was lost and that sends its SYN again gets the SYN-ACK again.", "quantifier": "every state with the stream waiting for a listener", "why_tests_cant": "loss patterns", "anchors": ["emissary-core/src/sam/protocol/streaming/stream/pending.rs: PendingStream::on_packet"]}
{"id": "C68", "title": "NTCP2 messages arrive in order and exactly once", "statement": "Over an established NTCP2 session, for any sequence of messages and any splitting of the byte stream by the two sockets, the receiver hands on a prefix of the messages the sender accepted, in order, each exactly once (expired ones dropped), and all of them once every byte has arrived.", "quantifier": "every message sequence, write and read schedule, and point of interruption", "why_tests_cant": "unbounded schedules of partial reads and writes", "anchors": ["emissary-core/src/transport/ntcp2/session/active.rs: Ntcp2Session::poll", "emissary-core/src/transport/ntcp2/message.rs: MessageBlock::new_i2np_message"]}
{"id": "C69", "title": "A connection request uses a free stream id", "statement": "A new outbound stream never takes the id of an open or requested stream, and opening it leaves every other stream as it was.", "quantifier": "every manager state and drawn id", "why_tests_cant": "id collisions", "anchors": ["emissary-core/src/sam/protocol/streaming/mod.rs: StreamManager::create_stream"]}
{"id": "C70", "title": "A connection request is retried a bounded number of times", "statement": "A connection request sends its SYN at most three times; when the third goes unanswered the client is told once that the stream was rejected, and nothing more is sent for it.", "quantifier": "every history of packets, timers and other streams after the request", "why_tests_cant": "interleavings of timers with all other events", "anchors": ["emissary-core/src/sam/protocol/streaming/mod.rs: StreamManager::{create_stream,poll_next}"]}
{"id": "C71", "title": "SSU2 acknowledgement state is bounded by what was received", "statement": "The memory a session keeps for acknowledgements is bounded by the number of packets received (and by a window), whatever packet numbers the peer chooses.", "quantifier": "every sequence of packet numbers", "why_tests_cant": "adversarial packet numbers", "anchors": ["emissary-core/src/transport/ssu2/session/active/ack.rs: RemoteAckManager::register_pkt"]}
{"id": "C72", "title": "An SSU2 message is delivered exactly once", "statement": "A message handed to an SSU2 session is handed on by the receiving session exactly once if all its packets arrive at least once, in any order and with repetitions, interleaved with packets of other messages.", "quantifier": "every message, arrival order, repetition and interleaving, with at most one rotation of the duplicate filter while the message's packets arrive", "why_tests_cant": "orders and repetitions of fragments; sizes at the fragmentation boundary", "anchors": ["emissary-core/src/transport/ssu2/session/active/mod.rs: Ssu2Session::{send_message,handle_packet,handle_message}", "emissary-core/src/transport/ssu2/session/active/fragment.rs: FragmentHandler"]}
{"id": "C73", "title": "Router capabilities are read as specified", "statement": "A router counts as reachable exactly when it publishes neither U nor H and has an address with host and port; floodfill, usability and bandwidth class are those of the published letters, and with them whether it counts as fast or standard.", "quantifier": "every capability string and address list", "why_tests_cant": "all strings and address combinations", "anchors": ["emissary-core/src/primitives/capabilities.rs: Capabilities::parse", "emissary-core/src/primitives/router_info.rs: RouterInfo::is_reachable"]}
{"id": "C74", "title": "An SSU2 packet is read back by its addressee", "statement": "A packet built for a peer is, when it arrives unchanged, attributed by the peer to the session with the destination connection id and read back to the kind, packet number, token and contents that were sent.", "quantifier": "every connection id, packet number, token, message, fragment, acknowledgement, set of other sessions and key", "why_tests_cant": "all headers, contents and keys; masking depends on the ciphertext", "anchors": ["emissary-core/src/transport/ssu2/message.rs: DataMessageBuilder, TokenRequestBuilder, RetryBuilder, SessionRequestBuilder, SessionCreatedBuilder, SessionConfirmedBuilder, HeaderReader", "emissary-core/src/transport/ssu2/socket.rs: Ssu2Socket::handle_packet"]}
{"id": "C75", "title": "Both ends of an SSU2 handshake agree", "statement": "If every handshake packet arrives, dialling a router ends in a session at both ends; each end encrypts with exactly the keys the other decrypts with, addresses the other by its connection id, and the first packet of the responder is accepted by the initiator.", "quantifier": "every pair of routers, random values, connection ids, paddings, clock values and build profile", "why_tests_cant": "all keys and random values; agreement is about two parties' states", "anchors": ["emissary-core/src/transport/ssu2/session/pending/inbound.rs: InboundSsu2Session", "emissary-core/src/transport/ssu2/session/pending/outbound.rs: OutboundSsu2Session", "emissary-core/src/crypto/noise.rs: NoiseContext", "emissary-core/src/transport/ssu2/socket.rs: Ssu2Socket::connect"]}
{"id": "C76", "title": "No datagram crashes the SSU2 socket", "statement": "Whatever bytes arrive from the network, the socket neither panics nor stops; bytes it cannot use are dropped.", "quantifier": "every datagram, session table and key", "why_tests_cant": "every byte string of every length", "anchors": ["emissary-core/src/transport/ssu2/socket.rs: Ssu2Socket::handle_packet", "emissary-core/src/transport/ssu2/message.rs: HeaderReader::{new,parse}"]}
{"id": "C77", "title": "Closing an SSU2 session tells the peer", "statement": "When a session is closed, a packet with the termination reason is sent to the peer.", "quantifier": "every session and reason", "why_tests_cant": "every key and payload", "anchors": ["emissary-core/src/transport/ssu2/session/terminating.rs: TerminatingSsu2Session::new", "emissary-core/src/transport/ssu2/message.rs: DataMessageBuilder::build"]}
{"id": "C78", "title": "SSU2 packets go to the session they are addressed to", "statement": "A packet is handed to a session only if it carries that session's connection id under the router's own or, from an address being dialled, the dialled router's key; a packet that does carry it is handed on, with nothing but the header mask removed.", "quantifier": "every datagram, session table and key", "why_tests_cant": "every datagram; a failed attempt with one key must leave no trace", "anchors": ["emissary-core/src/transport/ssu2/socket.rs: Ssu2Socket::handle_packet", "emissary-core/src/transport/ssu2/message.rs: HeaderReader::{dst_id,parse,reset_key}"]}
{"id": "C79", "title": "An inbound SSU2 session is with the router it is reported as", "statement": "A session is reported under a router id only if the peer proved that it holds the static key in that router's router info.", "quantifier": "every peer, static key and router info", "why_tests_cant": "adversarial peers", "anchors": ["emissary-core/src/transport/ssu2/session/pending/inbound.rs: InboundSsu2Session::on_session_confirmed"]}
{"id": "C80", "title": "A dialled SSU2 session is reported under the dialled router's id", "statement": "When dialling a router succeeds or fails, the event names that router.", "quantifier": "every pair of routers", "why_tests_cant": "every router info", "anchors": ["emissary-core/src/transport/ssu2/socket.rs: Ssu2Socket::connect"]}
{"id": "C81", "title": "A stray packet does not end an SSU2 handshake", "statement": "A packet that is not the one expected (forged, duplicated, retransmitted) is ignored and the handshake goes on.", "quantifier": "every handshake state and packet", "why_tests_cant": "adversarial and duplicated packets", "anchors": ["emissary-core/src/transport/ssu2/session/pending/inbound.rs: InboundSsu2Session::on_packet", "emissary-core/src/transport/ssu2/session/pending/outbound.rs: OutboundSsu2Session::on_packet"]}
{"id": "C82", "title": "Every SSU2 handshake ends", "statement": "An unanswered handshake packet is sent again at the times the specification gives, then the handshake is given up, exactly once; no handshake waits for ever.", "quantifier": "every schedule of delays and every handshake state", "why_tests_cant": "time", "anchors": ["emissary-core/src/transport/ssu2/session/pending/mod.rs: PacketRetransmitter"]}
{"id": "C83", "title": "An SSU2 responder checks the token", "statement": "A session request is answered only if it carries the token the responder issued to that address.", "quantifier": "every issued and presented token", "why_tests_cant": "all tokens", "anchors": ["emissary-core/src/transport/ssu2/session/pending/inbound.rs: InboundSsu2Session::on_session_request"]}
{"id": "C84", "title": "SSU2 nonces are never reused", "statement": "A session never encrypts two packets under the same key and packet number.", "quantifier": "every number of packets sent", "why_tests_cant": "2^32 packets", "anchors": ["emissary-core/src/transport/ssu2/session/active/mod.rs: Ssu2Session::next_pkt_num"]}
{"id": "C85", "title": "Both ends of an NTCP2 handshake agree", "statement": "Dialling a router of the same network over a faithful connection succeeds at both ends; the three messages and all keys are those the NTCP2 specification prescribes, each end's keys mirror the other's, the responder learns the initiator's router info, no byte after the handshake is consumed, and the resulting session carries messages in both directions.", "quantifier": "every pair of routers, static and ephemeral keys, paddings, clock values and following bytes", "why_tests_cant": "all keys and random values; agreement is about two parties' states", "anchors": ["emissary-core/src/transport/ntcp2/session/initiator.rs: Initiator", "emissary-core/src/transport/ntcp2/session/responder.rs: Responder", "emissary-core/src/transport/ntcp2/session/mod.rs: SessionManager"]}
{"id": "C86", "title": "NTCP2 sessions stay within the network and the allowed addresses", "statement": "A session request for another network or protocol version is refused before anything is sent; a session is only accepted from a router info of the own network; a router with a private address (unless allowed) or without key, IV or address is not dialled.", "quantifier": "every request, router info and following bytes", "why_tests_cant": "every network id, version, address and stream", "anchors": ["emissary-core/src/transport/ntcp2/session/responder.rs: Responder::new", "emissary-core/src/transport/ntcp2/session/mod.rs: SessionManager::accept_session_inner", "emissary-core/src/transport/ntcp2/session/mod.rs: SessionManager::create_session_inner"]}
{"id": "C87", "title": "An inbound NTCP2 session is with the router it is reported as", "statement": "A session is reported under a router's identity only if the peer proved that it holds the static key in that router's router info.", "quantifier": "every peer, static key and router info", "why_tests_cant": "adversarial peers", "anchors": ["emissary-core/src/transport/ntcp2/session/responder.rs: Responder::finalize"]}
{"id": "C88", "title": "A peer cannot crash the router with NTCP2 handshake bytes", "statement": "Accepting and dialling end in a session or an error, whatever bytes the peer sends.", "quantifier": "every byte stream, local state and build profile", "why_tests_cant": "every byte stream", "anchors": ["emissary-core/src/transport/ntcp2/session/mod.rs: SessionManager::accept_session_inner", "emissary-core/src/transport/ntcp2/session/mod.rs: SessionManager::create_session_inner"]}
{"id": "C89", "title": "Replayed and stale NTCP2 session requests are refused", "statement": "A session request made more than a minute ago, or seen before, is not answered.", "quantifier": "every request, age and number of repetitions", "why_tests_cant": "time and history", "anchors": ["emissary-core/src/transport/ntcp2/session/responder.rs: Responder::new"]}
{"id": "C90", "title": "The start-up table keeps the best-performing floodfills", "statement": "When the network database starts with more known floodfills than its table can hold, the routers kept are those with the best recorded lookup performance.", "quantifier": "every set of routers and every recorded performance", "why_tests_cant": "every set of profiles", "anchors": ["emissary-core/src/netdb/dht.rs: Dht::new"]}
{"id": "C91", "title": "At most one connection per router", "statement": "A connection to a router is accepted only if no other connection to that router is open, and every established connection is accepted or rejected.", "quantifier": "every history of requests, connections, failures and closings", "why_tests_cant": "interleavings of two transports, lookups and peers", "anchors": ["emissary-core/src/transport/mod.rs: TransportManager"]}
{"id": "C92", "title": "A router is not dialled or looked up twice at once", "statement": "While a dial to a router or a lookup of its router info is under way, no other one is started.", "quantifier": "every history in which dials and lookups end at most once", "why_tests_cant": "interleavings", "anchors": ["emissary-core/src/transport/mod.rs: TransportManager::on_dial_router"]}
{"id": "C93", "title": "A router can be reached again after its connection closed", "statement": "When no connection to a known router is open and no dial is under way, a request to connect dials it and a connection from it is accepted.", "quantifier": "every router and every history", "why_tests_cant": "interleavings", "anchors": ["emissary-core/src/transport/mod.rs: TransportManager"]}
{"id": "C94", "title": "A request to connect leads to a dial, a lookup or a reported failure", "statement": "After a subsystem asks for a connection, the router is being dialled or looked up, or the failure is reported to the subsystem.", "quantifier": "every router and every history", "why_tests_cant": "interleavings", "anchors": ["emissary-core/src/transport/mod.rs: TransportManager::on_dial_router"]}
{"id": "C95", "title": "Messages to a router are handed over in order and confirmed only then", "statement": "The messages handed to a router's connections are messages that were to be sent to that router, in the order in which they were to be sent and each at most once; a feedback channel is signalled when its message was handed over and not otherwise.", "quantifier": "every history of sends, connections, failures and closings", "why_tests_cant": "histories", "anchors": ["emissary-core/src/tunnel/mod.rs: TunnelManager::send_message, on_connection_established", "emissary-core/src/transport/mod.rs: TransportService"]}
{"id": "C96", "title": "Messages to an unconnected router wait for the connection", "statement": "The first message to an unconnected router makes it be dialled; messages sent meanwhile are handed over in order when the connection comes up, before later ones, and none is lost while there is room.", "quantifier": "every sequence of sends and unrelated events", "why_tests_cant": "interleavings", "anchors": ["emissary-core/src/tunnel/mod.rs: TunnelManager::send_message, on_connection_established"]}
{"id": "C97", "title": "Messages to a connected router are sent", "statement": "While a connection to a router is open and has room, messages for the router are sent over it.", "quantifier": "every router and every history", "why_tests_cant": "histories", "anchors": ["emissary-core/src/tunnel/mod.rs: TunnelManager::on_connection_failure", "emissary-core/src/transport/mod.rs: TransportService::connect"]}
{"id": "C98", "title": "Every message from a peer is dispatched by its type", "statement": "A received message is routed to its tunnel, given to the network database, or dropped if a peer has no business sending it; tunnel data that was seen before is dropped; no message stops the router.", "quantifier": "every message and build profile", "why_tests_cant": "every message", "anchors": ["emissary-core/src/tunnel/mod.rs: TunnelManager::on_message"]}
{"id": "C99", "title": "Every garlic clove is delivered according to its instructions", "statement": "A clove for a router or for a tunnel of a router is sent to that router, also if that router is this one.", "quantifier": "every garlic message", "why_tests_cant": "every set of cloves", "anchors": ["emissary-core/src/tunnel/mod.rs: TunnelManager::on_garlic"]}
{"id": "C100", "title": "A message sent by the router goes to the router it names", "statement": "A message for the local router is routed locally, one for another router is queued for it unchanged, and a feedback channel is signalled only for a message that was taken over.", "quantifier": "every message and table", "why_tests_cant": "every message", "anchors": ["emissary-core/src/tunnel/routing_table.rs: RoutingTable::send_message, send_message_with_feedback"]}
{"id": "C101", "title": "A tunnel build tells the creator what every router decided", "statement": "A build request passed from hop to hop comes back to the creator. The creator gets the tunnel if and only if every hop had room, was not shutting down and did not use the tunnel id; each hop that agreed then has a tunnel with exactly the ids, next hop and keys the creator has for it, and a hop that refused is unchanged and answered with the bandwidth-reject code.", "quantifier": "every number of hops, direction, state of the hops and choice of random values", "why_tests_cant": "compositions of routers", "anchors": ["emissary-core/src/tunnel/hop/pending.rs: PendingTunnel::create_tunnel, try_build_tunnel", "emissary-core/src/tunnel/transit/mod.rs: TransitTunnelManager::handle_short_tunnel_build", "emissary-core/src/tunnel/noise.rs", "emissary-core/src/tunnel/garlic.rs"]}
{"id": "C102", "title": "A tunnel that was built carries messages", "statement": "The tunnels the hops set up are linked to each other, the layers the creator applies to an outbound message are removed by the hops one by one, and the layers the hops of an inbound tunnel add are removed by the creator.", "quantifier": "every built tunnel and message", "why_tests_cant": "compositions of routers", "anchors": ["emissary-core/src/tunnel/hop/outbound.rs", "emissary-core/src/tunnel/hop/inbound.rs", "emissary-core/src/tunnel/transit/participant.rs"]}
{"id": "C103", "title": "A failed build blames the router that failed it", "statement": "The report of a failed build lists every hop with its own answer.", "quantifier": "every build and every set of answers", "why_tests_cant": "every combination of answers", "anchors": ["emissary-core/src/tunnel/hop/pending.rs: PendingTunnel::try_build_tunnel"]}
{"id": "C104", "title": "Transit tunnels stay reachable until they end", "statement": "As long as a transit tunnel runs, messages for its id reach it, and when it has ended the id is free again.", "quantifier": "every history of requests, endings and uses of the routing table", "why_tests_cant": "histories", "anchors": ["emissary-core/src/tunnel/transit/mod.rs: TransitTunnelManager", "emissary-core/src/tunnel/routing_table.rs: RoutingTable"]}
{"id": "C105", "title": "No message stops the handling of transit tunnels or of builds", "statement": "Whatever message reaches the transit tunnel manager or a pending build is handled without a panic.", "quantifier": "every message", "why_tests_cant": "every message", "anchors": ["emissary-core/src/tunnel/transit/mod.rs: TransitTunnelManager::poll", "emissary-core/src/tunnel/hop/pending.rs: PendingTunnel::try_build_tunnel"]}
{"id": "C106", "title": "The options of a build reply are empty", "statement": "The reply record a hop returns starts with an empty options mapping, as the specification of short build replies says.", "quantifier": "every request", "why_tests_cant": "every request", "anchors": ["emissary-core/src/tunnel/transit/mod.rs: TransitTunnelManager::handle_short_tunnel_build"]}
{"id": "C107", "title": "Expired and repeated build requests are refused", "statement": "A request whose expiration has passed, or which was accepted before, is not accepted.", "quantifier": "every request and time", "why_tests_cant": "time and history", "anchors": ["emissary-core/src/tunnel/transit/mod.rs: TransitTunnelManager::handle_short_tunnel_build"]}
{"id": "C108", "title": "Profile bookkeeping never fails", "statement": "Loading, adding, recording, ranking and looking up routers never aborts, and a lookup returns exactly the routers of the bucket that pass the filter, in every history in which nothing but dials is recorded about routers never seen.", "quantifier": "every history of additions, events and maintenance", "why_tests_cant": "history-dependent; expectations scattered over the code", "anchors": ["emissary-core/src/profile.rs: ProfileStorage::{new,add_router,get_router_ids}, ProfileManager::run"]}
{"id": "C109", "title": "A router's profile is what was recorded about it", "statement": "At any time the profile of a router holds exactly the events recorded about it, whatever was recorded about others and however maintenance interleaves.", "quantifier": "every history", "why_tests_cant": "history-dependent", "anchors": ["emissary-core/src/profile.rs: ProfileStorage"]}
{"id": "C110", "title": "A tunnel is established exactly if every hop agrees", "statement": "The creator considers a tunnel established exactly if the reply has the right size and every hop's authenticated answer in it is yes; a failed build names a hop that refused or answered badly.", "quantifier": "every reply message, also forged", "why_tests_cant": "every message", "anchors": ["emissary-core/src/tunnel/hop/pending.rs: PendingTunnel::try_build_tunnel"]}
{"id": "C111", "title": "Long build requests are answered truthfully", "statement": "A router answers a long build request with the decision it took, in the record made for it, readable by the requester, and changes no other record; it registers the tunnel exactly if it says yes.", "quantifier": "every request and router state", "why_tests_cant": "every request", "anchors": ["emissary-core/src/tunnel/transit/mod.rs: TransitTunnelManager::handle_variable_tunnel_build"]}
{"id": "C112", "title": "Backups are complete", "statement": "A backup contains every router with a profile, with what was recorded about it and with the router info received last since the previous backup.", "quantifier": "every history", "why_tests_cant": "history-dependent", "anchors": ["emissary-core/src/profile.rs: ProfileStorage::backup"]}
{"id": "C113", "title": "Hop selection finds hops when there are any", "statement": "In secure mode, selecting n hops succeeds exactly if reachable routers below the participation limit are known in n different /16 subnets, whatever is drawn; it never panics; and routers that refuse or fail are used only if the others do not suffice.", "quantifier": "every store of routers, all counts and random draws", "why_tests_cant": "random selection over every router set", "anchors": ["emissary-core/src/tunnel/pool/selector.rs: ExploratorySelector::select_hops, ClientSelector::select_hops"]}
{"id": "C114", "title": "Garlic session establishment agrees on keys", "statement": "If one destination opens a session with another, the other reads the request, learns the sender's static key, and for every reply the sender reads, both sides hold the same keys for both directions: the reply's payload and the first message under the new keys are delivered, whichever of any number of replies was read.", "quantifier": "every pair of keys, payloads, number and choice of replies", "why_tests_cant": "ranges over all keys, payloads and reply choices", "anchors": ["emissary-core/src/destination/session/context.rs: KeyContext::{create_outbound_session,create_inbound_session}", "emissary-core/src/destination/session/inbound.rs: InboundSession::{create_new_session_reply,handle_existing_session}", "emissary-core/src/destination/session/outbound.rs: OutboundSession::{generate_new_session_reply_tags,handle_new_session_reply}"]}
{"id": "C115", "title": "Garlic messages are readable in any order, each once", "statement": "Every message a destination sends in an established garlic session can be read by its peer, in whatever order the messages arrive and whichever of them are lost, and none is read twice; damaged messages are refused and do not disturb the session.", "quantifier": "every order of delivery, loss, duplication and damage", "why_tests_cant": "ranges over all delivery orders and loss patterns", "anchors": ["emissary-core/src/destination/session/session.rs: Session::{decrypt,encrypt}", "emissary-core/src/destination/session/mod.rs: SessionManager::{encrypt,decrypt}"]}
{"id": "C116", "title": "Requests for garlic sessions are not replayable", "statement": "A request for a garlic session that was accepted before is refused when it is received again: its contents are delivered once.", "quantifier": "every request and history", "why_tests_cant": "history-dependent", "anchors": ["emissary-core/src/destination/session/mod.rs: SessionManager::decrypt", "emissary-core/src/destination/session/context.rs: KeyContext::create_inbound_session"]}
{"id": "C117", "title": "Bad or late messages do not disable a destination", "statement": "After a damaged, forged or late message the local destination can still open a session with, and send to, every remote destination.", "quantifier": "every message and history", "why_tests_cant": "every history and every message, also forged", "anchors": ["emissary-core/src/destination/session/session.rs: PendingSession::{advance_inbound,advance_outbound}", "emissary-core/src/destination/session/mod.rs: SessionManager::{encrypt,decrypt,maintain}"]}
{"id": "C118", "title": "Received garlic messages do not abort the program", "statement": "No garlic message, whatever its content and whatever happened before, aborts the program.", "quantifier": "every message and history", "why_tests_cant": "ranges over every message in every reachable state", "anchors": ["emissary-core/src/destination/session/mod.rs: SessionManager::decrypt", "emissary-core/src/destination/session/session.rs"]}
{"id": "C119", "title": "Sessions are established whoever opens them", "statement": "If two destinations send messages to each other, every message is delivered and a garlic session is established after a bounded number of messages, also if both begin at the same time.", "quantifier": "every interleaving of sends and arrivals", "why_tests_cant": "ranges over schedules of two parties", "anchors": ["emissary-core/src/destination/session/mod.rs: SessionManager::{encrypt,decrypt}", "emissary-core/src/destination/session/session.rs: PendingSession"]}
{"id": "C120", "title": "A destination that restarts can be reached", "statement": "If a destination loses its garlic sessions and asks its peer for a new one, the peer's next messages can be read by it.", "quantifier": "every session state", "why_tests_cant": "history of two parties", "anchors": ["emissary-core/src/destination/session/mod.rs: SessionManager::{encrypt,decrypt}"]}
{"id": "C121", "title": "Peers get the newest lease set", "statement": "After a new lease set is registered, it is sent in every established garlic session until the peer acknowledges it.", "quantifier": "every order of registrations, messages and acknowledgments", "why_tests_cant": "history-dependent", "anchors": ["emissary-core/src/destination/session/mod.rs: SessionManager::{register_lease_set,publish_local_lease_set,encrypt,decrypt}"]}
{"id": "C122", "title": "Sessions in use are kept", "statement": "A garlic session is dropped only if it was used neither for sending for eight nor for receiving for ten minutes, and its owner is told.", "quantifier": "every history and time", "why_tests_cant": "time and history", "anchors": ["emissary-core/src/destination/session/mod.rs: SessionManager::maintain"]}
{"id": "C123", "title": "Every reply to a session request is readable", "statement": "However many replies a destination gives to a request for a garlic session before the requester sends again, the requester can read each.", "quantifier": "every number of replies", "why_tests_cant": "unbounded number of messages", "anchors": ["emissary-core/src/destination/session/outbound.rs: OutboundSession::generate_new_session_reply_tags", "emissary-core/src/destination/session/inbound.rs: InboundSession::create_new_session_reply"]}
{"id": "C124", "title": "Unreachable remotes are given up after three failed queries in a row", "statement": "A routing path handle that has a way to send but no usable lease asks for the remote's lease set, has at most one such query out, and reports the remote as unreachable exactly when three queries in a row have failed; a successful query starts the count anew.", "quantifier": "every history of path requests, new-path requests, tunnel events and query results of a handle", "why_tests_cant": "the count depends on the whole history of results", "anchors": ["emissary-core/src/destination/routing_path.rs: RoutingPathHandle::poll, select_inbound_tunnel"]}
{"id": "C125", "title": "Lease set queries are shared and answered", "statement": "However many handles of a destination ask for a remote's lease set, there is at most one query for it at a time, and every handle that asked before news about the remote arrived is told by that news whether the query succeeded, once and not before.", "quantifier": "every history of requests, tunnel events and results", "why_tests_cant": "interleavings of requests and results", "anchors": ["emissary-core/src/destination/routing_path.rs: RoutingPathManager::poll_next, register_leases"]}
{"id": "C126", "title": "What is kept of a remote's leases is bounded", "statement": "For each remote destination the leases kept are its announced, unexpired ones, each once; storing the same lease set again does not make the router keep more.", "quantifier": "every history of lease set stores", "why_tests_cant": "growth without bound over any history", "anchors": ["emissary-core/src/destination/routing_path.rs: RoutingPathManager::register_leases"]}
{"id": "C127", "title": "Maintenance of garlic sessions forgets what is too old and nothing else", "statement": "Maintenance of the garlic session manager stops watching exactly for the tags of sessions in which nothing was received for ten minutes and no lease set was sent for eight, of tag sets that were replaced at least three minutes ago, and of replies to requests of sessions established at least three minutes ago; all other tags stay watched for and all other keys of sessions are kept.", "quantifier": "every history of calls with a clock that does not go back, every time of maintenance", "why_tests_cant": "a tag forgotten too early loses messages in flight, one kept too long leaks memory and weakens forward secrecy; which tags are affected depends on the whole history of ratchets", "anchors": ["emissary-core/src/destination/session/mod.rs: SessionManager", "emissary-core/src/destination/session/session.rs: Session::maintain"]}
{"id": "C128", "title": "Messages that arrive through a pool's tunnels reach whoever waits for them", "statement": "A reply that arrives through a tunnel pool's inbound tunnels is given to the listener that was registered for its message id, or for its garlic tag, whatever happened in between; a listener gets at most one message, and only one meant for it. Other garlic and network database messages go to the pool's owner, in order. No message makes the router fail.", "quantifier": "every history of registrations and messages, every message", "why_tests_cant": "the tables of listeners, tags and ids depend on the whole history, and the messages come from the network", "anchors": ["emissary-core/src/tunnel/pool/context.rs: TunnelPoolContextHandle, TunnelPoolContext"]}
{"id": "C129", "title": "A pool does not have more tunnels than configured", "statement": "With the tunnels that are about to expire aside, a tunnel pool never has more outbound or inbound tunnels, ready or being built, than its owner asked for.", "quantifier": "every history of polls: build results, expirations, timers, failures of hop selection", "why_tests_cant": "over-building shows up only after particular orders of builds and expirations, minutes apart", "anchors": ["emissary-core/src/tunnel/pool/mod.rs: TunnelPool::poll, maintain_pool, calculate_outbound_build_count, calculate_inbound_build_count"]}
{"id": "C130", "title": "A pool is refilled", "statement": "As soon as a build has failed, and at least every ten seconds, a pool that finds hops starts as many builds as it takes to have the configured number of tunnels, with those about to expire replaced in time.", "quantifier": "every history of polls", "why_tests_cant": "liveness over any history of failures and expirations", "anchors": ["emissary-core/src/tunnel/pool/mod.rs: TunnelPool::poll, maintain_pool", "emissary-core/src/tunnel/pool/timer.rs: TunnelTimer"]}
{"id": "C131", "title": "The owner of a pool knows its tunnels", "statement": "The owner of a tunnel pool is told of the tunnels that are built, about to expire and expired, in order; an owner that has read all events knows exactly which tunnels the pool has and which of them are about to expire.", "quantifier": "every history of polls and reads, every interleaving", "why_tests_cant": "depends on how the owner's reads interleave with the pool", "anchors": ["emissary-core/src/tunnel/pool/mod.rs: TunnelPool::poll", "emissary-core/src/tunnel/pool/context.rs: register_*", "emissary-core/src/tunnel/pool/handle.rs: TunnelPoolEvent"]}
{"id": "C132", "title": "A pool's ids in the routing table are those of its tunnels", "statement": "While a pool runs, the ids it occupies in the routing table are exactly those of its inbound tunnels, built or being built, and its selector offers exactly its tunnels; when the pool is shut down it leaves nothing behind.", "quantifier": "every history of polls", "why_tests_cant": "leaks are only visible after long histories of failures and expirations", "anchors": ["emissary-core/src/tunnel/pool/mod.rs: TunnelPool::poll, maintain_pool", "emissary-core/src/tunnel/pool/selector.rs: ExploratorySelector, ClientSelector"]}
{"id": "C133", "title": "Tunnel tests end while the tested tunnels exist", "statement": "The result of a tunnel test is never handled after one of the tunnels that were tested is gone, which would trip a debug assertion, unless the pool is polled late.", "quantifier": "every history of polls in which nothing is late by more than fifteen seconds", "why_tests_cant": "a race between three timers that are minutes long", "anchors": ["emissary-core/src/tunnel/pool/mod.rs: TunnelPool::poll, maintain_pool", "emissary-core/src/tunnel/pool/selector.rs: register_tunnel_test_success, register_tunnel_test_failure"]}
{"id": "C134", "title": "A pool runs until its owner shuts it down", "statement": "A tunnel pool ends only when its owner shuts it down, and tells its owner that it has ended.", "quantifier": "every history of polls", "why_tests_cant": "depends on the whole history and on what arrives through the tunnels", "anchors": ["emissary-core/src/tunnel/pool/mod.rs: TunnelPool::poll", "emissary-util/src/runtime/tokio.rs: TokioJoinSet", "emissary-core/src/tunnel/hop/inbound.rs: InboundTunnel"]}
{"id": "C135", "title": "Every network database query is settled exactly once and in time", "statement": "Whoever asks the network database for a lease set or a router info is told the outcome exactly once: the record, an error, or a cancellation. The outcome is known at the first poll at least 21.6 seconds after the request.", "quantifier": "every history of requests, messages, tunnel and connection events, timers and clock movements", "why_tests_cant": "a caller that waits forever, or is answered twice, shows only in particular interleavings", "anchors": ["emissary-core/src/netdb/mod.rs: NetDb::query_lease_set, query_router_info, on_database_store, on_database_search_reply, handle_timeout, poll", "emissary-core/src/netdb/query.rs: Query"]}
{"id": "C136", "title": "A query ends only with its own outcome", "statement": "A network database query is not abandoned, with those who wait for it cancelled, because of a message that does not answer it or because of another query.", "quantifier": "every state and every event", "why_tests_cant": "needs two queries and a message of a third party to meet at one key", "anchors": ["emissary-core/src/netdb/mod.rs: NetDb::on_database_store, on_database_search_reply, query_lease_set, query_router_info"]}
{"id": "C137", "title": "A lease set query is answered with the lease set asked for", "statement": "A successful answer to a query for the lease set of a destination is a lease set of that destination that has not expired, and was sent in answer to the query.", "quantifier": "every history, every message an attacker may send", "why_tests_cant": "the messages come from anybody", "anchors": ["emissary-core/src/netdb/mod.rs: NetDb::on_database_store", "emissary-core/src/destination/mod.rs: Destination::poll_next"]}
{"id": "C138", "title": "No floodfill is asked twice for the same query", "statement": "While a query waits for its outcome no floodfill router is sent more than one lookup for it.", "quantifier": "every history from the start of the query", "why_tests_cant": "depends on which routers become known, and on the order of replies and timeouts", "anchors": ["emissary-core/src/netdb/query.rs: Query::handle_search_reply, handle_timeout", "emissary-core/src/netdb/mod.rs: NetDb::handle_timeout"]}
{"id": "C139", "title": "The network database dials a router once and loses no message to it", "statement": "Messages of the network database to a router it is not connected to wait, in order, for one dial; when the connection is up all that have not expired are sent once. Nothing is handed to the transport for a router that is not connected.", "quantifier": "every history of messages and connection events", "why_tests_cant": "interleavings of sends with connection events are unbounded", "anchors": ["emissary-core/src/netdb/mod.rs: NetDb::send_message, on_connection_established, on_connection_closed, on_connection_failure, on_lease_set_lookup, on_router_info_lookup"]}
{"id": "C140", "title": "A floodfill answers every lookup once", "statement": "A floodfill answers each lookup exactly once, by the route the asker names: with the record if it has it, else with at most five routers it knows, none of which the asker excluded. Other routers answer no lookups.", "quantifier": "every state, lookup, route and list of excluded routers", "why_tests_cant": "depends on all stored records and on everything the tables may hold", "anchors": ["emissary-core/src/netdb/mod.rs: NetDb::on_lease_set_lookup, on_router_info_lookup, on_router_exploration, on_message"]}
{"id": "C141", "title": "A floodfill serves the lease sets stored with it while they are valid", "statement": "A valid lease set stored with a floodfill, under the key of its destination, is what lookups for that destination get until it expires or a newer one replaces it; expired lease sets are removed.", "quantifier": "every history after the store", "why_tests_cant": "needs hours of history, and messages of third parties", "anchors": ["emissary-core/src/netdb/mod.rs: NetDb::on_lease_set_store, on_lease_set_lookup, maintain_netdb", "emissary-core/src/primitives/lease_set.rs: LeaseSet2::is_expired, expires"]}
{"id": "C142", "title": "A floodfill serves current router infos", "statement": "A floodfill stores a router info only under the key of its router, if it is of this network and recent, and does not serve it when it has become old.", "quantifier": "every history", "why_tests_cant": "staleness shows after days", "anchors": ["emissary-core/src/netdb/mod.rs: NetDb::on_router_info_store, on_router_info_lookup, maintain_netdb"]}
{"id": "C143", "title": "Router infos are checked before they are believed", "statement": "Every router info the network database passes on to the router's profiles is of this network, not of this router itself, and not older than an hour.", "quantifier": "every state and message", "why_tests_cant": "the messages come from anybody", "anchors": ["emissary-core/src/netdb/mod.rs: NetDb::on_router_info_store, on_database_store"]}
{"id": "C144", "title": "Whoever waits for the network database to be ready is told once", "statement": "Each request to be told when the network database is ready is answered exactly once, at the latest when there is both an outbound and an inbound tunnel.", "quantifier": "every history of requests and of tunnels built and expired", "why_tests_cant": "interleavings of requests with tunnel events", "anchors": ["emissary-core/src/netdb/mod.rs: NetDb::poll", "emissary-core/src/netdb/handle.rs: NetDbHandle::wait_until_ready"]}
{"id": "C145", "title": "Lookups are spread evenly over live tunnels", "statement": "Every lookup uses an outbound and an inbound tunnel that were built and have not been reported expired, and of as many lookups in a row as there are tunnels each tunnel carries one.", "quantifier": "every history of tunnels and lookups", "why_tests_cant": "fairness is about all lengths of history", "anchors": ["emissary-core/src/netdb/query.rs: TunnelSelector::next_tunnel, add_tunnel, remove_tunnel", "emissary-core/src/netdb/mod.rs: NetDb::poll"]}
{"id": "C146", "title": "Routers that know few others explore more often", "statement": "A router that is not a floodfill explores the network at regular intervals, the shorter the fewer routers it knows, and fetches the router infos of those routers a reply names that it does not know yet, never its own.", "quantifier": "every random number, every number of known routers, every reply", "why_tests_cant": "intervals are minutes long and random", "anchors": ["emissary-core/src/netdb/mod.rs: NetDb::explore_routers, on_database_search_reply, poll, EXPLORATION_INTERVAL_LOW_ROUTER_COUNT, EXPLORATION_INTERVAL_HIGH_ROUTER_COUNT"]}
{"id": "C147", "title": "A floodfill is charged with a timeout only if it did not answer in time", "statement": "A floodfill is charged with a timeout only if it was sent a lookup and did not answer within 1.6 seconds.", "quantifier": "every history of queries", "why_tests_cant": "needs a second query for the same key while a timer of the first one runs", "anchors": ["emissary-core/src/netdb/mod.rs: NetDb::handle_timeout, poll", "emissary-core/src/netdb/dht.rs: Dht::register_lookup_timeout"]}
{"id": "C148", "title": "A floodfill acknowledges and floods what it accepts, and only that", "statement": "A floodfill that accepts a record and was asked for a delivery status sends the status to the router named and the record once to each of the three closest floodfills; a record it refuses, or that asks for no status, causes no messages, and other routers flood nothing.", "quantifier": "every state and store", "why_tests_cant": "depends on the whole contents of the table", "anchors": ["emissary-core/src/netdb/mod.rs: NetDb::on_lease_set_store, on_router_info_store"]}
{"id": "C149", "title": "One query per remote, one outcome per query", "statement": "A destination runs at most one lease set query per remote, exactly while it reports the query as pending. Asking reports found, not found or pending according to whether a valid lease set is known. A query that the database does not take is tried three times; its result, or the failure, is reported as exactly one event, a lease set that was found is stored, and nothing else changes what the user is told.", "quantifier": "every history of requests, sends, received messages, query results and time", "why_tests_cant": "depends on how queries overlap with other events for the same remote", "anchors": ["emissary-core/src/destination/mod.rs: Destination::query_lease_set, poll_next"]}
{"id": "C150", "title": "Messages go to leases that were announced for their remote", "statement": "A destination sends a message only to a router and tunnel that were announced for the remote of the message, by the remote itself or in the answer to a query for it. A message for a remote without lease set is refused, one for a remote whose lease set has expired is kept and a query is running, and otherwise it leaves at once with eight seconds to live. The lease set of a remote is always the last one received or found, and it is never forgotten.", "quantifier": "every history and message", "why_tests_cant": "a history of any length may have replaced the lease sets", "anchors": ["emissary-core/src/destination/mod.rs: Destination::send_message_inner, decrypt_message, poll_next"]}
{"id": "C151", "title": "Messages that wait for a lease set are kept and sent when it is found", "statement": "Every message that a destination takes has left, was refused by the tunnel pool, or waits; none is duplicated. When a query finds a valid lease set all messages that wait leave in the order in which they were handed over. Messages for a remote leave in the order in which they were handed over, and as soon as the remote is reachable.", "quantifier": "every history", "why_tests_cant": "needs all interleavings of sends, expirations, queries and received lease sets", "anchors": ["emissary-core/src/destination/mod.rs: Destination::send_message_inner, poll_next"]}
{"id": "C152", "title": "A lease set is only replaced by a newer one of the same remote", "statement": "The lease set of a remote is only replaced by one that the remote signed, that is valid and that is newer than the one it replaces.", "quantifier": "every state and message", "why_tests_cant": "an attacker chooses the message", "anchors": ["emissary-core/src/destination/mod.rs: Destination::decrypt_message, poll_next"]}
{"id": "C153", "title": "A routing path works until its lease expires", "statement": "A message over a routing path whose inbound tunnel's lease has not expired is sent to that tunnel through the path's outbound tunnel, even if the remote has replaced its lease set.", "quantifier": "every history of replaced lease sets", "why_tests_cant": "a history may replace the lease set any number of times", "anchors": ["emissary-core/src/destination/mod.rs: Destination::send_message_inner, decrypt_message, poll_next"]}
{"id": "C154", "title": "The user gets the data messages of a garlic message in order", "statement": "For a garlic message with data messages in it the user gets one event with the bodies of exactly those messages, in order; other parts never surface, and there is no event without data.", "quantifier": "every state and message", "why_tests_cant": "ranges over all contents of a message", "anchors": ["emissary-core/src/destination/mod.rs: Destination::decrypt_message"]}
{"id": "C155", "title": "A routing path that asks for a lease set is answered", "statement": "When a routing path asks for a lease set of a remote, it is answered: at once, or when a query that was made for it ends.", "quantifier": "every history", "why_tests_cant": "depends on the state of the remote's lease set and on running queries", "anchors": ["emissary-core/src/destination/mod.rs: Destination::poll_next", "emissary-core/src/destination/routing_path.rs: RoutingPathManager::register_leases"]}
{"id": "C156", "title": "An unpublished destination stays unpublished", "statement": "A destination that is created unpublished never sends its lease set to a floodfill, never asks one for it and makes no query for the sake of publishing.", "quantifier": "every history of tunnels, lease sets, messages and answers", "why_tests_cant": "a leak needs only one history in which a message is sent", "anchors": ["emissary-core/src/destination/lease_set.rs: LeaseSetManager"]}
{"id": "C157", "title": "A lease set is published to the closest floodfill with the current content", "statement": "A lease set that is published is the last one that was registered; it goes to the closest known floodfill to which it was not sent before, sealed for that floodfill, and the answer comes back over a live tunnel of the destination. It is checked with the closest floodfill that was neither asked nor sent the lease set.", "quantifier": "every state, set of floodfills and time", "why_tests_cant": "ranges over all sets of floodfills and keys", "anchors": ["emissary-core/src/destination/lease_set.rs: LeaseSetManager::create_database_store, create_database_lookup, poll"]}
{"id": "C158", "title": "Publishing is paced", "statement": "Without new tunnels a lease set is published at most every 25 seconds, nobody is asked for it within ten seconds after it was published, and there are at least two seconds between two lookups.", "quantifier": "every history without new inbound tunnels, and every pair of messages in it", "why_tests_cant": "ranges over all interleavings of timers, answers and refusals", "anchors": ["emissary-core/src/destination/lease_set.rs: LeaseSetManager::poll"]}
{"id": "C159", "title": "Publishing stops when the lease set is seen, and only then", "statement": "When the published lease set comes back from a floodfill, nothing more is sent until a tunnel is built; nothing but the published lease set stops it.", "quantifier": "every state and message", "why_tests_cant": "an attacker chooses the message", "anchors": ["emissary-core/src/destination/lease_set.rs: LeaseSetManager::register_database_store", "emissary-core/src/destination/mod.rs: Destination::decrypt_message"]}
{"id": "C160", "title": "Publishing never gets stuck and never spins", "statement": "Every poll of the publisher ends after a bounded number of steps and leaves it waiting for an event or for a timer at most 30 seconds ahead. A lease set that is not seen within 15 seconds is published again.", "quantifier": "every state, time and sequence of answers", "why_tests_cant": "liveness over all states", "anchors": ["emissary-core/src/destination/lease_set.rs: LeaseSetManager::poll"]}
{"id": "C161", "title": "A destination outlives a moment without floodfills", "statement": "That the network database has no floodfill at the moment does not end a destination; it tries again.", "quantifier": "every state and answer", "why_tests_cant": "needs the answer of another task at the worst moment", "anchors": ["emissary-core/src/destination/lease_set.rs: LeaseSetManager::poll", "emissary-core/src/netdb/mod.rs: NetDb::get_closest_floodfills"]}
{"id": "C162", "title": "Messages of strangers do not choose where a lease set is published", "statement": "To whom a lease set is published does not depend on messages of routers that were not asked, and only floodfills are sent lease sets.", "quantifier": "every state and message", "why_tests_cant": "an attacker chooses the message", "anchors": ["emissary-core/src/destination/lease_set.rs: LeaseSetManager::register_database_search_reply"]}
{"id": "C163", "title": "A SAM client gets what it was sent, in order and complete", "statement": "The bytes that a SAM client receives are the messages that were sent to it, one after the other in the order of sending. While its socket is open nothing is lost, and as soon as the stream takes what it is given everything has been written.", "quantifier": "every sequence of messages, arriving segments and polls, and every amount that the stream takes", "why_tests_cant": "depends on how many bytes the stream takes at each write", "anchors": ["emissary-core/src/sam/socket.rs: SamSocket::send_message, SamSocket::poll_next"]}
{"id": "C164", "title": "The commands of a SAM client are the lines that it sent", "statement": "However a client's bytes are cut into segments, the router sees one command for each line that is a command, in order, and no other command.", "quantifier": "every sequence of lines, every way to cut them into segments and every schedule of polls", "why_tests_cant": "TCP chooses the segments", "anchors": ["emissary-core/src/sam/socket.rs: SamSocket::poll_next"]}
{"id": "C165", "title": "A SAM command means what it says", "statement": "A command with options is understood with exactly the options that the client wrote, each with its value, the last one if an option is given twice; or it is refused. Values may be in quotes.", "quantifier": "every command and every list of options", "why_tests_cant": "options, values and their order are arbitrary", "anchors": ["emissary-core/src/sam/parser.rs: SamCommand::parse, parse_key_value_pairs, parse_value"]}
{"id": "C166", "title": "SAM hosts: what a client connects to, and no command crashes the router", "statement": "The destination of a connection is read as the id, the name or the destination that the client wrote, and as nothing else. No command, however malformed, stops the router.", "quantifier": "every text", "why_tests_cant": "the text is arbitrary, and the code slices it at computed positions", "anchors": ["emissary-core/src/sam/parser.rs: SamCommand::try_from"]}
{"id": "C167", "title": "SAM datagrams: what is sent where, and no datagram crashes the router", "statement": "A datagram that a client hands to the router is taken for the session, the destination and the data that it names. A malformed datagram is ignored.", "quantifier": "every datagram", "why_tests_cant": "anybody can send any datagram to the port", "anchors": ["emissary-core/src/sam/parser.rs: Datagram::parse", "emissary-core/src/sam/mod.rs: SamServer::poll"]}
{"id": "C168", "title": "No two SAM sessions share a name or a destination", "statement": "At every moment the sessions of the SAM server, whether in use or still waiting for tunnels, have distinct names and distinct destinations. A client that asks for a name or a destination in use is told so and gets no session.", "quantifier": "every sequence of commands, tunnel events and session ends", "why_tests_cant": "depends on the whole history of sessions that were made, failed and ended", "anchors": ["emissary-core/src/sam/mod.rs: SamServer::poll"]}
{"id": "C169", "title": "A SAM name and destination can be used again after their session", "statement": "A client can make a session with a name and a destination that nobody uses: they are new, or the session that used them is gone.", "quantifier": "every history of the server", "why_tests_cant": "depends on the whole history of sessions that were made, failed and ended", "anchors": ["emissary-core/src/sam/mod.rs: SamServer::poll"]}
{"id": "C170", "title": "Every SAM command is answered or passed to its session", "statement": "A command for streams is passed to the session it names; if that is not possible the client gets an answer. Every answer is a line.", "quantifier": "every history of the server and every command", "why_tests_cant": "depends on the state of the session and its channel when the command arrives", "anchors": ["emissary-core/src/sam/mod.rs: SamServer::poll, SessionContext::send_command"]}
{"id": "C171", "title": "One client cannot bring the SAM server down", "statement": "Whatever a client or a process that reaches the datagram port sends, the server goes on and the sessions of other clients stay.", "quantifier": "every history of the server, every command and every datagram", "why_tests_cant": "anybody can send any datagram to the port", "anchors": ["emissary-core/src/sam/mod.rs: SamServer::poll", "emissary-util/src/runtime/tokio.rs: TokioJoinSet::poll_next"]}
{"id": "C172", "title": "A SAM session is started with tunnels", "statement": "A session is not reported as started before it has an inbound and an outbound tunnel. It is started as soon as it has both, with exactly the tunnels that were built and have not expired. It fails only if the tunnel pool goes away.", "quantifier": "every sequence of tunnel events", "why_tests_cant": "tunnels are built and expire in any order", "anchors": ["emissary-core/src/sam/pending/session.rs: PendingSamSession::run"]}
{"id": "C173", "title": "Datagrams for SAM clients are written in order", "statement": "Datagrams that sessions have for their clients are written to the datagram socket in order, each once and none is lost.", "quantifier": "every schedule of datagrams and writes", "why_tests_cant": "depends on when the socket takes datagrams", "anchors": ["emissary-core/src/sam/mod.rs: SamServer::poll"]}
{"id": "C174", "title": "A SAM client that looks up a name gets one answer", "statement": "For each lookup the client gets one line with the value, or that the name is not valid or not known: at once if nothing has to be looked for, otherwise when the address book or the network database has answered. Never more than one.", "quantifier": "every history of a session and every name", "why_tests_cant": "lookups, queries and their results can come in any order", "anchors": ["emissary-core/src/sam/session.rs: SamSession::on_naming_lookup, on_lease_set_found, on_lease_set_not_found", "emissary-core/src/destination/mod.rs: Destination::query_lease_set"]}
{"id": "C175", "title": "A SAM session sends datagrams in order", "statement": "Datagrams for a destination are sent in the order in which the client gave them, each once. Those for which there is no lease set yet wait and are sent when it is found. Sessions for streams send none.", "quantifier": "every history of a session, every destination", "why_tests_cant": "depends on when lease sets are found", "anchors": ["emissary-core/src/sam/session.rs: SamSession::on_send_datagram, on_lease_set_found"]}
{"id": "C176", "title": "A SAM client that wants a stream gets it or an answer", "statement": "A client that connects is given to a stream when the lease set of the destination is there, and is told with a line if it is not found. Each socket is dealt with once and none is dropped without an answer.", "quantifier": "every history of a session, every socket", "why_tests_cant": "depends on the order of connects, query results and streams that are opened and rejected", "anchors": ["emissary-core/src/sam/session.rs: SamSession::on_stream_connect, create_outbound_stream, on_lease_set_found, on_lease_set_not_found, poll"]}
{"id": "C177", "title": "A SAM datagram arrives as it was sent, with its true sender", "statement": "A datagram that one client sends is passed to the port of the other client unchanged, after a line with the destination that sent it and the ports, if it is repliable. Nobody can send in the name of another destination, and no datagram stops a session.", "quantifier": "every pair of sessions and every datagram", "why_tests_cant": "any bytes can arrive", "anchors": ["emissary-core/src/sam/protocol/datagram/mod.rs: DatagramManager::make_datagram, on_datagram", "emissary-core/src/sam/session.rs: SamSession::on_inbound_message"]}
{"id": "C178", "title": "An I2CP payload is read as it was built", "statement": "Data, ports and protocol of a payload are read as they were given when it was built. What is too short or of an unknown protocol is refused.", "quantifier": "every payload, every pair of ports, every byte string", "why_tests_cant": "all byte strings", "anchors": ["emissary-core/src/i2cp/payload.rs: I2cpPayloadBuilder::build, I2cpPayload::decompress, I2cpParameters::new", "emissary-core/src/protocol.rs: Protocol"]}
{"id": "C179", "title": "Messages of an I2CP client are seen as they were sent", "statement": "However the bytes of an I2CP client are cut into segments and whenever the router polls the connection, the messages that the router takes from it are those of the complete frames the client has sent, each once and in order; when there is nothing left to read, each of them has been taken; a frame of any size does not end the connection.", "quantifier": "every sequence of frames, segmentation of their bytes, and interleaving of arrivals, outgoing messages and polls with any behaviour of the stream when it is written to", "why_tests_cant": "the number of segmentations and interleavings is unbounded; a test fixes one of them", "anchors": ["emissary-core/src/i2cp/socket.rs I2cpSocket::poll_next", "emissary-core/src/i2cp/socket.rs ReadState"]}
{"id": "C180", "title": "An I2CP client gets its messages in order", "statement": "What has been written to an I2CP client is a beginning of the messages that were sent to it, one after the other; nothing is lost while the connection is open, and a stream that takes what it is given gets all of it.", "quantifier": "every history of messages sent, arrivals and polls, with the stream taking any number of bytes at a time", "why_tests_cant": "partial writes and interleavings with reading are unbounded", "anchors": ["emissary-core/src/i2cp/socket.rs I2cpSocket::poll_next", "emissary-core/src/i2cp/socket.rs I2cpSocket::send_message"]}
{"id": "C181", "title": "An I2CP client can read what the router sends", "statement": "Every message that the router builds for an I2CP client has the length that its header says, so that a client that follows the framing finds the message and then whatever was sent after it.", "quantifier": "every message, with any content, followed by any bytes", "why_tests_cant": "it has to hold for every content and whatever follows; the tests of the builders do not read the messages back", "anchors": ["emissary-core/src/i2cp/message/host_reply.rs HostReply::new", "emissary-core/src/i2cp/message/lease_set.rs RequestVariableLeaseSet::new", "emissary-core/src/i2cp/message/payload.rs MessagePayload::new", "emissary-core/src/i2cp/message/session_status.rs SessionStatus::new", "emissary-core/src/i2cp/message/set_date.rs SetDate::new", "emissary-core/src/i2cp/message/bandwidth.rs BandwidthLimits::new"]}
{"id": "C182", "title": "The router understands an I2CP message as the client meant it", "statement": "Lookups, messages and lease sets of an I2CP client are understood with the values that the client gave; a session is only made for a destination whose key signed the request; a lease set is kept byte for byte and signed for the destination that it is kept for, with keys that belong to it; no message ends the connection.", "quantifier": "every value of every field and every byte string", "why_tests_cant": "the input is any byte string from a client", "anchors": ["emissary-core/src/i2cp/message/mod.rs Message::parse", "emissary-core/src/i2cp/message/mod.rs Message::parse_create_session", "emissary-core/src/i2cp/message/mod.rs Message::parse_create_leaseset2", "emissary-core/src/i2cp/message/mod.rs Message::parse_send_message_expires"]}
{"id": "C183", "title": "An I2CP client's messages to a destination are sent in order, once, and not lost", "statement": "Messages that an I2CP client sends to a destination are given to the network in the order in which the client sent them and none is sent twice. A message for a destination whose lease set is known is sent at once; otherwise it waits for the lease set and is sent when that is found. A message is not dropped without the client being told.", "quantifier": "every sequence of client messages, query results and destination events", "why_tests_cant": "which messages wait depends on the interleaving of lookups, sends and query results for the same destination", "anchors": ["emissary-core/src/i2cp/session.rs I2cpSession::on_message SendMessageExpires", "emissary-core/src/i2cp/session.rs I2cpSession::poll", "emissary-core/src/destination/mod.rs Destination::query_lease_set"]}
{"id": "C184", "title": "An I2CP host lookup is answered exactly once", "statement": "Each HostLookup of an I2CP client gets one HostReply: at once if the destination is known, otherwise when the address book or the network database answers, with a failure if it is not found.", "quantifier": "every sequence of lookups, sends and results", "why_tests_cant": "lookups, messages and the router's own queries share one table of queries", "anchors": ["emissary-core/src/i2cp/session.rs I2cpSession::on_message HostLookup", "emissary-core/src/i2cp/session.rs I2cpSession::poll"]}
{"id": "C185", "title": "An I2CP client gets the messages for its destination in order with increasing ids", "statement": "The messages that arrive for the destination of an I2CP session reach the client, each once, in order of arrival, and their message ids count up from 0 (modulo 2^32).", "quantifier": "every sequence of events of a session that has not ended", "why_tests_cant": "the ids depend on the whole history of the session", "anchors": ["emissary-core/src/i2cp/session.rs I2cpSession::send_payload_message", "emissary-core/src/i2cp/session.rs I2cpSession::poll"]}
{"id": "C186", "title": "An I2CP session does what the client says about its lease set, its keys and its end", "statement": "A lease set that the client creates is published and the messages for it are decrypted with the private keys that came with it. A lease set is published to the network database unless the client asks for the opposite. A session that the client destroys ends. A second CreateSession is refused.", "quantifier": "every state of an active session and every message", "why_tests_cant": "keys and options are given once and used much later", "anchors": ["emissary-core/src/i2cp/session.rs I2cpSession::new", "emissary-core/src/i2cp/session.rs I2cpSession::on_message"]}
{"id": "C187", "title": "An I2CP session starts with the tunnels that its client was asked to sign for", "statement": "After CreateSession the client is asked once for a lease set, when the tunnels that its options ask for are up, with the leases of exactly those inbound tunnels. The session starts when the client answers, with these tunnels. A lease set that was not asked for, options without tunnels, lookups and DestroySession are handled without harm.", "quantifier": "every sequence of client messages and tunnel pool events before the session is active", "why_tests_cant": "tunnels are built and expire in any order while the client talks to the router", "anchors": ["emissary-core/src/i2cp/pending.rs PendingI2cpSession::on_message", "emissary-core/src/i2cp/pending.rs PendingI2cpSession::poll", "emissary-core/src/tunnel/pool/mod.rs TunnelPoolConfig::from"]}
{"id": "C188", "title": "I2CP sessions have ids of their own and do not disturb each other", "statement": "The server takes connections that begin with the protocol byte, gives each session an id that no other session has, and what one client sends changes nothing for other clients; in particular it does not end the server.", "quantifier": "every sequence of connections and client messages", "why_tests_cant": "needs all interleavings of several clients and long histories", "anchors": ["emissary-core/src/i2cp/mod.rs I2cpServer::poll", "emissary-core/src/i2cp/mod.rs I2cpServer::next_session_id", "emissary-core/src/i2cp/session.rs I2cpSession::new", "emissary-util/src/runtime/tokio.rs TokioJoinSet::poll_next"]}
{"id": "C189", "title": "Shuffling neither loses nor repeats anything and can give every order", "statement": "The shuffle used to pick routers, leases and hosts returns a rearrangement of its input, whatever the random numbers, and every arrangement can come out.", "quantifier": "every list and every sequence of random numbers", "why_tests_cant": "ranges over all lists and all random draws", "anchors": ["emissary-core/src/util/mod.rs shuffle"]}
{"id": "C190", "title": "Addresses that are not reachable from the internet are not taken for public ones", "statement": "An IPv4 address is taken for a public one exactly when it lies in none of the blocks reserved for private networks, local links, loopback, documentation, benchmarks, carrier networks, multicast and future use.", "quantifier": "every IPv4 address", "why_tests_cant": "2^32 addresses and many boundaries", "anchors": ["emissary-core/src/util/mod.rs is_global"]}
{"id": "C191", "title": "Reading and writing a whole buffer handles any way the socket splits it", "statement": "Reading n bytes gives the next n bytes of the peer, in order, however the socket delivers them, and leaves the rest; it fails only if the peer closes, the socket fails or ten seconds pass. Writing a buffer passes exactly its bytes to the socket, each once, in order.", "quantifier": "every split of the stream into parts and every schedule of polls", "why_tests_cant": "every partition of the data and every timing must be considered", "anchors": ["emissary-core/src/util/mod.rs ReadExact, WriteAll"]}
{"id": "C192", "title": "The duplicate filter recognises every repeat within its period and little else", "statement": "A message that was inserted is recognised when it is inserted again before two decays have passed, it is forgotten after that, and a message that was not inserted is let through.", "quantifier": "every sequence of inserts and decays", "why_tests_cant": "depends on all messages seen before and on the hashes of all of them", "anchors": ["emissary-core/src/bloom.rs DecayingBloomFilter"]}
{"id": "C193", "title": "Every holder of a shutdown handle is told once, and its answer counts", "statement": "A subsystem that holds a shutdown handle finds the notice when it looks after the shutdown was asked for, once. What it answers, before or after it has looked, ends the wait for it. A handle that is given out late is told too.", "quantifier": "every sequence of handles, requests, polls, answers and drops", "why_tests_cant": "any interleaving of the router and its subsystems", "anchors": ["emissary-core/src/shutdown.rs ShutdownContext, ShutdownHandle"]}
{"id": "C194", "title": "The numbers in a router status are those of the moment", "statement": "A status event is made each time the update timer fires, with the number of transit tunnels and connected routers last reported and the sums of the bandwidth and tunnel counts reported so far, modulo 2^64; status events arrive in order.", "quantifier": "every sequence of reports, timers and reads", "why_tests_cant": "numbers depend on the whole history of all subsystems", "anchors": ["emissary-core/src/events.rs EventHandle, EventManager::poll"]}
{"id": "C195", "title": "Every destination that starts is reported once", "statement": "The status events tell the program of every client and server destination that was started, each once, in order.", "quantifier": "every sequence of starts, timers and reads", "why_tests_cant": "losses depend on how far the reader is behind", "anchors": ["emissary-core/src/events.rs EventManager::poll", "emissary-core/src/events.rs EventHandle::client_destination_started"]}
{"id": "C196", "title": "The router ends when it is asked to and says so", "statement": "The router runs until it is asked to shut down or its transports end. Asked once, it ends when its transit manager is done; asked twice, it ends at once. The program that embeds it is told once that the router is shutting down and once that it has shut down.", "quantifier": "every sequence of requests, polls and answers", "why_tests_cant": "any interleaving of requests with the subsystems", "anchors": ["emissary-core/src/router/mod.rs Router::shutdown", "emissary-core/src/router/mod.rs Router::poll", "emissary-core/src/events.rs EventManager::shutdown"]}
{"id": "C197", "title": "A graceful shutdown lets the transit tunnels run out", "statement": "After the shutdown is asked for the transit manager goes on serving its tunnels and is done exactly when the last one has ended, right away if it has none; without a request it is never done.", "quantifier": "every history of build requests, tunnel ends and the shutdown request", "why_tests_cant": "depends on when each of many tunnels ends", "anchors": ["emissary-core/src/tunnel/transit/mod.rs TransitTunnelManager::poll"]}
{"id": "C198", "title": "A host name has the address of the first list line about it", "statement": "After the router was started and one or more host lists have arrived, looking a name up in the address book gives the address of the first line, over all lists in the order of their arrival, that names it; later lines and later lists cannot replace it, a name in no list is unknown, and the order in which the table of names is written out does not matter. A line is read as the text before the first `=` and the text after it up to `#!`, both without surrounding white space.", "quantifier": "all sequences of lists of arbitrary text, all orders of writing out the table, all names, all previous files", "why_tests_cant": "The texts, the number of lists and the hash order are unbounded; tests look at one or two lists.", "anchors": ["emissary-cli/src/address_book.rs: AddressBookManager::parse_and_merge, AddressBookHandle::resolve"]}
{"id": "C199", "title": "Known host names survive restarts and crashes", "statement": "A name the address book knew is still known after the router was stopped and started again, wherever it was stopped, and has the same address. (Violated: the first list of a new run replaces the whole book by its own names; stopping before the file is written leaves no names; stopping inside an address leaves a shortened address that is handed out.)", "quantifier": "all histories of starts, lists and stops at any point of writing the file", "why_tests_cant": "Needs every crash point of every write and every previous content.", "anchors": ["emissary-cli/src/address_book.rs: AddressBookManager::parse_and_merge, AddressBookManager::run, AddressBookHandle::resolve"]}
{"id": "C200", "title": "The HTTP proxy sends exactly the sanitised request", "statement": "If the HTTP proxy sends a browser's request on, the destination reads one request with the same method and target, HTTP/1.1, and for each header of the browser, in order, its promised form and nothing else: User-Agent becomes one constant, Accept-Encoding keeps its value, Connection becomes upgrade or close, Referer is kept only if it is text with the host's name in it, other Accept headers and X-Requested-With, Via, From, Forwarded, DNT, X-Forwarded and Proxy- headers are dropped, all others are unchanged; then the bytes read after the head. No header value can add a header or end the head early.", "quantifier": "all requests that the HTTP parser accepts, with any number of headers, names, values and bodies", "why_tests_cant": "Header lists and values are unbounded; injection needs every value.", "anchors": ["emissary-cli/src/proxy/http/mod.rs: HttpProxy::parse_request"]}
{"id": "C201", "title": "Destinations cannot tell browsers apart by their headers", "statement": "Requests of two browsers for the same page of the same site, which differ only in headers about the browser, the user or other pages, reach the destination as the same bytes. (Holds for the headers the proxy knows. Violated: every header it does not know is forwarded unchanged, such as Sec-CH-UA or X-Real-IP; a Referer from another site is forwarded if it has the host's name anywhere in it; a request without User-Agent stays without.)", "quantifier": "all pairs of requests related in this way", "why_tests_cant": "It is a relation between two runs over all inputs.", "anchors": ["emissary-cli/src/proxy/http/mod.rs: HttpProxy::parse_request, ILLEGAL"]}
{"id": "C202", "title": "The HTTP proxy serves exactly GET and POST requests for .i2p hosts", "statement": "A request is sent on exactly if its method is GET or POST, it has a target, and the first Host header is UTF-8 and ends in .i2p; the stream is opened to this host without a leading www., never to anything that does not end in .i2p. (Violated for hosts with a port: Host: name.i2p:80 is refused.)", "quantifier": "all requests that the HTTP parser accepts", "why_tests_cant": "The host and the position of the header are arbitrary.", "anchors": ["emissary-cli/src/proxy/http/mod.rs: HttpProxy::parse_request, HttpProxy::on_request"]}
{"id": "C203", "title": "The HTTP proxy sends the whole body of a request", "statement": "The destination receives the body the browser sent. (Only a beginning of it: violated, since bytes which are not in the read that completes the head are never sent, nothing after the first 8192 bytes is sent, and a head longer than that is refused.)", "quantifier": "all requests and all sizes of the reads from the browser's connection", "why_tests_cant": "Depends on how the network splits the data.", "anchors": ["emissary-cli/src/proxy/http/mod.rs: HttpProxy::read_request, HttpProxy::on_request"]}
{"id": "C204", "title": "Reseed files are read exactly as the SU3 format says", "statement": "Every file of the SU3 format (magic, kinds, lengths, padding, version, signer, content, signature, anything behind it) is read as its parts, and nothing that is not such a file is read.", "quantifier": "all documents and all byte strings, with and without debug assertions", "why_tests_cant": "The parts have arbitrary contents and lengths.", "anchors": ["emissary-util/src/su3.rs: Su3::parse_inner, SignatureKind, FileKind, ContentKind"]}
{"id": "C205", "title": "Only routers from properly signed reseed files are used", "statement": "Routers are taken from a reseed file only if it is reseed data and carries a valid signature of a known signer over everything before the signature; a genuine signature is accepted. (The kind is checked. Violated: the outcome does not depend on the signature, the signer or whether checking was asked for; and a genuine signature is reported as bad, since the wrong bytes are checked.)", "quantifier": "all files, keys, signature schemes and archives", "why_tests_cant": "Ranges over all forgeries.", "anchors": ["emissary-util/src/su3.rs: Su3::parse_reseed; emissary-util/src/reseeder.rs: Reseeder::reseed_inner"]}
{"id": "C206", "title": "No reseed file can crash the router", "statement": "Whatever a reseed server sends, parsing it returns. (Violated: an archive entry that the zip library cannot open ends the program, and so does, with debug assertions, a version shorter than 16 bytes; nothing else does.)", "quantifier": "all byte strings a server can send and all archives", "why_tests_cant": "Every malformed file has to be considered.", "anchors": ["emissary-util/src/su3.rs: Su3::parse_reseed, Su3::parse_inner"]}
{"id": "C207", "title": "Reseeding ends after at most five different servers", "statement": "Reseeding asks different servers, at most five, takes the routers of the first usable answer and otherwise reports failure; it always ends. (Violated: with one to four servers and no usable answer it never ends, with none it panics; it ends once five different servers were drawn.)", "quantifier": "all numbers of servers, all answers and all random draws", "why_tests_cant": "Depends on the random draws, and non-termination cannot be tested.", "anchors": ["emissary-util/src/reseeder.rs: Reseeder::reseed_inner"]}
{"id": "C208", "title": "A router keeps its identity over restarts", "statement": "Once the program has started well, every later start that succeeds uses the same static, signing, NTCP2 and SSU2 keys, whatever new keys could have been drawn and wherever any number of starts between them were killed.", "quantifier": "all contents of the data directory, all sequences of starts, each complete or stopped after any number of changes to the disk, all configurations and arguments", "why_tests_cant": "the crash points of repeated starts form an infinite set of histories; tests start the program once in an empty directory", "anchors": ["emissary-cli/src/config.rs: Config::parse, Config::new_empty, Config::load_key, Config::create_static_key, Config::create_signing_key, Config::create_ntcp2_keys, Config::create_ssu2_keys"]}
{"id": "C209", "title": "A damaged key file is not silently replaced", "statement": "A key file that is there is used or reported: a start does not go on with another identity because a key file is damaged, and it does not overwrite it. (Violated: a file that is too short is replaced by a new key; proved in part: a file that is long enough is never changed and its beginning is the key.)", "quantifier": "all contents of the key files, all histories of starts", "why_tests_cant": "the contents of the file and the crash history are unbounded", "anchors": ["emissary-cli/src/config.rs: Config::load_key, Config::parse"]}
{"id": "C210", "title": "After a start every directory that router infos are stored in exists", "statement": "After a start that succeeds, a router info can be stored for every router identifier, even if an earlier start was killed at any point. (Violated: if the first start is killed while it makes the directories, the missing ones are never made.)", "quantifier": "all stop points of the first start, all later histories", "why_tests_cant": "needs a kill between two system calls of the first start", "anchors": ["emissary-cli/src/config.rs: Config::create_netdb_dir, Config::parse", "emissary-cli/src/storage.rs: RouterStorage::store_router_info"]}
{"id": "C211", "title": "The configuration file of the user is replaced only when asked", "statement": "router.toml is replaced by the default configuration only if --overwrite-config was given. (Violated: a file that cannot be read as text is replaced without it; proved in part: a valid file is never changed, and an invalid one only with the option.)", "quantifier": "all contents of router.toml, all histories of starts and stop points", "why_tests_cant": "unbounded contents and histories", "anchors": ["emissary-cli/src/config.rs: Config::load_router_config, Config::parse"]}
{"id": "C212", "title": "A killed first start does not change the configuration of the next", "statement": "If the first start is killed, the next start uses the default configuration with its arguments. (Violated: killed while router.toml is written, the part that was written is the configuration from then on; the empty part is one, with everything disabled. Proved in part: killed before that point, it uses the default.)", "quantifier": "all stop points of the first start, all default configuration texts, all parsers", "why_tests_cant": "needs a kill between two system calls of the first start", "anchors": ["emissary-cli/src/config.rs: Config::new_empty, Config::load_router_config, Config::parse"]}
{"id": "C213", "title": "The arguments of the command line are respected", "statement": "A start uses the configuration changed by the arguments of the command line. (Violated: the first start, in a directory that does not exist, ignores them; proved in part: every other start uses them on top of the file or of the default.)", "quantifier": "all arguments, all contents of the data directory", "why_tests_cant": "ranges over all argument combinations and directory contents", "anchors": ["emissary-cli/src/config.rs: Config::parse, Config::new_empty, Config::merge"]}
{"id": "C214", "title": "Arguments take precedence over the configuration file", "statement": "Every argument that is given has its effect on the configuration the router runs with, and everything no argument is about is as in the file. (Violated: the port or the address of the HTTP proxy given alone is dropped if the file has no HTTP proxy.)", "quantifier": "all configurations, all combinations of arguments", "why_tests_cant": "the combinations of options are too many to test", "anchors": ["emissary-cli/src/config.rs: Config::merge", "emissary-cli/src/cli.rs: Arguments"]}
{"id": "C215", "title": "Tunnels of the configuration do not collide", "statement": "A configuration is accepted exactly if no two client tunnels share a name or a port and no two server tunnels share a name, a port or a destination file.", "quantifier": "all lists of client and server tunnels", "why_tests_cant": "unbounded lists", "anchors": ["emissary-cli/src/config.rs: Config::new"]}
{"id": "C216", "title": "Routers are downloaded exactly when needed", "statement": "A start downloads routers exactly if that is forced, or it is not disabled and fewer routers are known than the limit given by the arguments, else by the file, else 25 if only servers were given.", "quantifier": "all configurations, arguments and numbers of known routers", "why_tests_cant": "interaction of five options and the file", "anchors": ["emissary-cli/src/main.rs: setup_router", "emissary-cli/src/config.rs: Config::merge"]}
{"id": "C217", "title": "A profile is loaded for the router it was stored for", "statement": "The name read back from the file of a profile is the identifier of the router it was stored for. (Violated: with .toml in the path of the data directory loading panics; with profile- in it all names are wrong; proved in part for all other paths.)", "quantifier": "all data directory paths, all router identifiers", "why_tests_cant": "tests use one temporary directory", "anchors": ["emissary-cli/src/config.rs: Config::load_router_profiles", "emissary-cli/src/storage.rs: RouterStorage::store_profile"]}
{"id": "C218", "title": "Router infos and profiles survive a restart", "statement": "After a batch of routers was stored completely, the next start loads for each of them exactly the profile stored last, to the second, and its router info, whatever was stored or interrupted before and whatever is stored for other routers later.", "quantifier": "all file contents, all sequences of batches, each complete or stopped at any point", "why_tests_cant": "unbounded histories and crash points", "anchors": ["emissary-cli/src/storage.rs: RouterStorage::save_to_disk, RouterStorage::store_router_info, RouterStorage::store_profile", "emissary-cli/src/config.rs: Config::load_router_profiles, Config::load_router_infos"]}
{"id": "C219", "title": "Being killed while storing loses nothing that was stored", "statement": "If the program is killed while it stores a batch, every router info and profile is the old or the new one. (Violated: files are emptied before they are written, and an empty profile file counts as a profile without any history; proved in part: every file is the old one or a beginning of the new one.)", "quantifier": "all batches, all stop points", "why_tests_cant": "needs a kill between two system calls", "anchors": ["emissary-cli/src/storage.rs: RouterStorage::store_router_info, RouterStorage::store_profile", "emissary-cli/src/config.rs: Config::load_router_profiles"]}
{"id": "C220", "title": "Port forwarding maps the ports of the transports", "statement": "The port mapper asks the gateway to forward exactly the ports of the enabled transports, NTCP2 over TCP and SSU2 over UDP, and UPnP has removed every mapping when the router has shut down. (Violated: NAT-PMP never maps a UDP port; proved in part for UPnP.)", "quantifier": "all port configurations, all gateway behaviours, all event orders", "why_tests_cant": "the gateway and the order of events are outside the program", "anchors": ["emissary-cli/src/port_mapper/nat_pmp.rs: PortMapper::try_map_ntcp2, PortMapper::try_map_ssu2, PortMapper::run", "emissary-cli/src/port_mapper/upnp.rs: PortMapper::run"]}
{"id": "C221", "title": "UPnP takes over if NAT-PMP does not work", "statement": "If NAT-PMP fails and UPnP is enabled, UPnP is started. (Violated: an operation that ends with an error is polled again and panics; proved in part: if an operation times out, UPnP is started.)", "quantifier": "all results and durations of all operations", "why_tests_cant": "depends on the timing and the answers of the gateway", "anchors": ["emissary-cli/src/port_mapper/nat_pmp.rs: PortMapper::with_retries_and_timeout, PortMapper::try_switch_to_upnp, PortMapper::run"]}
{"id": "C222", "title": "The router is told every change of its external address", "statement": "The router is told the external addresses that the gateway gives, each change once, so that the last one it was told is the last one the gateway gave. (Violated after an error, see C221; proved in part otherwise.)", "quantifier": "all event sequences, all gateway answers", "why_tests_cant": "unbounded sequences of timer events and answers", "anchors": ["emissary-cli/src/port_mapper/nat_pmp.rs: PortMapper::run", "emissary-cli/src/port_mapper/upnp.rs: PortMapper::run"]}
{"id": "C223", "title": "The gateway is asked for the address every five minutes", "statement": "There are at least five minutes between two questions for the external address. (Violated by UPnP: its timer is never set again, and it asks without pause; proved in part for NAT-PMP.)", "quantifier": "all durations of answers, any number of questions", "why_tests_cant": "only shows after the first five minutes, and for all answer times", "anchors": ["emissary-cli/src/port_mapper/upnp.rs: PortMapper::run", "emissary-cli/src/port_mapper/nat_pmp.rs: PortMapper::run"]}
{"id": "C224", "title": "A server tunnel keeps its address", "statement": "Once a server tunnel has an address, every later start of the program has the same. (Violated: a start that is killed while it stores the key leaves a part of it, which every later start takes for the key; a key that cannot be stored is replaced at every start; proved in part: a key that was stored completely is kept for ever.)", "quantifier": "all sequences of starts, all stop points, all answers of the SAM server", "why_tests_cant": "needs kills between two system calls over several starts", "anchors": ["emissary-cli/src/tunnel/server.rs: ServerTunnelManager::load_or_create_destination"]}
{"id": "C225", "title": "A client tunnel serves every connection", "statement": "Every connection to the port of a client tunnel is served with a stream to the destination and port of that tunnel. (Violated: a connection that is made while the tunnel serves another one is never served; proved in part: a tunnel that waits serves the next connection, and no connection is served with the destination of another tunnel.)", "quantifier": "all numbers of tunnels, all event sequences", "why_tests_cant": "unbounded interleavings of connections to several tunnels", "anchors": ["emissary-cli/src/tunnel/client.rs: ClientTunnelManager::run, ClientTunnelManager::tunnel_event_loop"]}
{"id": "C226", "title": "A SAM client and the router agree on a version", "statement": "A SAM connection goes on only after a greeting; its version is the one the client was told, and it is in the range that the client asked for. (Violated: the minimum is ignored; proved in part: the version is the smaller one of the client's maximum and the router's.)", "quantifier": "all sequences of commands and polls", "why_tests_cant": "all orders of commands, split over any polls", "anchors": ["emissary-core/src/sam/pending/connection.rs: PendingSamConnection"]}
{"id": "C227", "title": "A SAM client that sends commands keeps its connection", "statement": "A SAM connection is closed for silence only if the client was silent for ten seconds. (Violated: the time runs from the greeting, whatever the client sends after it; proved in part: there are ten seconds from the beginning and from the greeting.)", "quantifier": "all sequences of commands, all times", "why_tests_cant": "needs all timings of commands", "anchors": ["emissary-core/src/sam/pending/connection.rs: PendingSamConnection"]}
{"id": "C228", "title": "Keys that a SAM client is given can be used", "statement": "The private key in the answer to DEST GENERATE can be given to SESSION CREATE and makes a session with the destination of the answer and the keys that belong to it.", "quantifier": "all keys, all destinations, all names of sessions", "why_tests_cant": "for all values of the keys", "anchors": ["emissary-core/src/sam/pending/connection.rs: PendingSamConnection", "emissary-core/src/sam/parser.rs: SamCommand::try_from"]}
{"id": "C229", "title": "A reachable router is connected to", "statement": "A request to connect to a known router makes the router send to an address from the router info, over an enabled transport, expecting the key given there; it never stops the router. (Violated: with both transports enabled a router that has only an SSU2 address is never connected to; with SSU2 alone a request to connect to a router with no SSU2 address is a panic; proved in part: otherwise the router is dialled at its address.)", "quantifier": "all router infos, all combinations of transports", "why_tests_cant": "needs all router infos of the network", "anchors": ["emissary-core/src/transport/mod.rs: TransportManager::on_dial_router", "emissary-core/src/transport/ntcp2/session/mod.rs: SessionManager::create_session", "emissary-core/src/transport/ssu2/socket.rs: Ssu2Socket::connect"]}
{"id": "C230", "title": "Private addresses are used only if allowed", "statement": "Unless local addresses are allowed, the router neither connects to, nor takes connections from, private and reserved addresses. (Violated: SSU2 dials them, and NTCP2 does so for IPv6; proved in part: it holds for NTCP2 and IPv4.)", "quantifier": "all addresses, all router infos, all sequences of incoming connections", "why_tests_cant": "for every address", "anchors": ["emissary-core/src/transport/ntcp2/listener.rs: Ntcp2Listener::poll_next", "emissary-core/src/transport/ntcp2/session/mod.rs: SessionManager::create_session", "emissary-core/src/transport/ssu2/socket.rs: Ssu2Socket::connect"]}
{"id": "C231", "title": "The published address is the one the router listens on", "statement": "Other routers read from the local router info, for each transport that is to be published, the configured host or the external address found last, with the port that the transport listens on; and nothing for one that is not. (Violated: with a port chosen by the operating system, the port published with an external address is 0; proved in part: it holds for configured ports.)", "quantifier": "all configurations, all sequences of external addresses", "why_tests_cant": "for all histories of addresses, seen through serialization and parsing", "anchors": ["emissary-core/src/transport/mod.rs: TransportManager::add_external_address", "emissary-core/src/primitives/router_address.rs: RouterAddress", "emissary-core/src/transport/ntcp2/mod.rs: Ntcp2Transport::initialize", "emissary-core/src/transport/ssu2/mod.rs: Ssu2Transport::initialize"]}
{"id": "C232", "title": "An error of the network does not stop the router", "statement": "An error in accepting one connection or in sending one datagram concerns this connection or datagram alone. (Violated: the first one ends the transport and with it the router; proved in part: without such errors and without panics the transport never ends, and datagrams are sent in order, each once.)", "quantifier": "all sequences of connections, handshakes, polls and answers of the operating system", "why_tests_cant": "needs failures of the operating system at every moment", "anchors": ["emissary-util/src/runtime/tokio.rs: TcpListener::poll_accept, UdpSocket::poll_send_to", "emissary-core/src/transport/ntcp2/mod.rs: Ntcp2Transport::poll_next", "emissary-core/src/transport/ssu2/socket.rs: Ssu2Socket::poll_next", "emissary-core/src/router/mod.rs: Router::poll"]}
{"id": "C233", "title": "Each NTCP2 connection is reported once", "statement": "The transport reports every handshake that ends, and every connection that ends, once, in the order in which they end, and reports nothing else; a bounded number of polls is enough for all of them.", "quantifier": "all sequences of connections, dials, ends and polls", "why_tests_cant": "all interleavings of handshakes and polls", "anchors": ["emissary-core/src/transport/ntcp2/mod.rs: Ntcp2Transport::poll_next"]}
{"id": "C234", "title": "The NTCP2 transport does not sleep on work", "statement": "When the transport goes to sleep, nothing that it could take at once is waiting, or it is woken. (Violated: a second connection that arrives with the first one waits for an unrelated event, and so do handshakes behind one that failed without a known router; proved in part: in all other cases it holds.)", "quantifier": "all states of the transport", "why_tests_cant": "a lost wake-up depends on the order of events between two polls", "anchors": ["emissary-core/src/transport/ntcp2/mod.rs: Ntcp2Transport::poll_next", "emissary-util/src/runtime/tokio.rs: JoinSet"]}
{"id": "C235", "title": "A message sent through an outbound tunnel is delivered", "statement": "Whatever the owner of an outbound tunnel sends through it to a router or tunnel goes to the first hop, is passed on by every participant, and, in whatever order its pieces reach the endpoint and whatever else reaches it before, is delivered by the endpoint to that router or tunnel, unchanged, once, when its last piece arrives, unless it has expired. (Proved in part: for messages of up to 64 pieces, see C12.)", "quantifier": "all messages, all paths, all orders of arrival, all other traffic in the tunnel", "why_tests_cant": "all interleavings of pieces with other traffic through five programs in a row", "anchors": ["emissary-core/src/tunnel/hop/outbound.rs: OutboundTunnel::{send_to_router,send_to_tunnel}", "emissary-core/src/tunnel/transit/participant.rs: Participant", "emissary-core/src/tunnel/transit/outbound.rs: OutboundEndpoint"]}
{"id": "C236", "title": "A message sent to an inbound tunnel reaches its owner", "statement": "A message that the gateway of an inbound tunnel is given for it reaches the owner through all participants, unchanged, once, in whatever order its pieces arrive and whatever else arrives, unless it has expired at the gateway; and what an outbound endpoint sends for a tunnel (C235) is such a message. (Proved in part: for messages of up to 64 pieces, see C12.)", "quantifier": "all messages, all paths, all orders of arrival, all other traffic in the tunnel", "why_tests_cant": "all interleavings of pieces with other traffic", "anchors": ["emissary-core/src/tunnel/transit/inbound.rs: InboundGateway", "emissary-core/src/tunnel/transit/participant.rs: Participant", "emissary-core/src/tunnel/hop/inbound.rs: InboundTunnel"]}
{"id": "C237", "title": "A transit tunnel goes on whatever it is sent", "statement": "The task of a transit tunnel goes on until its time is up, whatever messages it takes, and every message that it gives to the routing table can be read. (Violated in debug builds: a message for the other kind of tunnel ends the process; proved in part: release builds go on, and the messages can be read in both.)", "quantifier": "all sequences of messages, ticks and timers, for participants, gateways and endpoints", "why_tests_cant": "every message and every set of pieces, of any sizes and numbers, in any order", "anchors": ["emissary-core/src/tunnel/transit/participant.rs: Participant::poll", "emissary-core/src/tunnel/transit/inbound.rs: InboundGateway::poll", "emissary-core/src/tunnel/transit/outbound.rs: OutboundEndpoint::poll"]}
{"id": "C238", "title": "Hops send only where they were told to", "statement": "A participant sends one tunnel message to its next hop for each tunnel message it takes and nothing otherwise; a gateway sends only tunnel messages to its next hop; an endpoint sends only to routers that the instructions of a piece from the tunnel named.", "quantifier": "all sequences of messages", "why_tests_cant": "for every message, well-formed or not", "anchors": ["emissary-core/src/tunnel/transit/participant.rs: Participant::handle_tunnel_data", "emissary-core/src/tunnel/transit/inbound.rs: InboundGateway::handle_tunnel_gateway", "emissary-core/src/tunnel/transit/outbound.rs: OutboundEndpoint::handle_tunnel_data"]}
{"id": "C239", "title": "Transit bandwidth is counted", "statement": "The transit bandwidth that is reported is that of all messages transit tunnels took and sent. (Violated: what a tunnel carried since its last report is dropped when it ends; proved in part: until then every byte is counted once.)", "quantifier": "all sequences of messages, ticks and timers", "why_tests_cant": "all interleavings of traffic, reports and ends", "anchors": ["emissary-core/src/tunnel/transit/participant.rs: Participant::poll", "emissary-core/src/events.rs: EventHandle::transit_tunnel_bandwidth"]}
{"id": "C240", "title": "A zero-hop tunnel brings the reply", "statement": "A zero-hop tunnel hands over the reply that is sent to it, at most once, and its place is free after the reply or the timer. (Violated: whatever is sent to it first uses it up; proved in part: the first message decides, and the tunnel always ends.)", "quantifier": "all sequences of routed messages and polls", "why_tests_cant": "all orders of messages and polls", "anchors": ["emissary-core/src/tunnel/pool/zero_hop.rs: ZeroHopInboundTunnel"]}
{"id": "C241", "title": "DSA signatures are checked exactly", "statement": "Under the public key g^x mod p, a DSA signature is accepted if and only if it satisfies the signing equations of the standard for the private key x and some secret number; numbers that are zero or not below the group order are refused under any key.", "quantifier": "all private keys, messages and signatures", "why_tests_cant": "for every signature of 320 bits; tests check a few vectors", "anchors": ["emissary-core/src/crypto/dsa.rs: DsaPublicKey::{new,verify}"]}
{"id": "C242", "title": "Signing keys and signatures as bytes", "statement": "A DSA key read from 128 bytes is written as the same 128 bytes, leading zeroes included; a signature whose length is not that of the key's signatures is refused. (Violated: a DSA signature with anything after it is accepted; proved in part: shorter ones are refused by every key, and longer ones by the other kinds.)", "quantifier": "all 128-byte strings; all keys, messages and signatures", "why_tests_cant": "leading zeroes are rare in random keys", "anchors": ["emissary-core/src/crypto/dsa.rs: DsaPublicKey::from_bytes, rectify, DsaSignature::from_bytes", "emissary-core/src/crypto/mod.rs: SigningPublicKey::verify"]}
{"id": "C243", "title": "No nonce is used twice under a key", "statement": "Of the messages sealed with one cipher object, each has a nonce of its own; when the nonces are used up, sealing fails from then on; and messages opened in the order in which they were sealed give what was sealed.", "quantifier": "all sequences of messages, all first nonces", "why_tests_cant": "the counter runs over 2^64 values", "anchors": ["emissary-core/src/crypto/chachapoly.rs: Nonce::next, ChaChaPoly::{encrypt_with_ad,decrypt_with_ad,with_nonce}"]}
{"id": "C244", "title": "Everything that is written to a stream arrives", "statement": "Whatever is written to a stream is read by the other side after some time, in order and unchanged, and the sender then holds nothing, in every schedule in which no one stops for good: a packet that is sent again and again arrives now and then, acknowledgements arrive now and then, timers run out, and the reader reads; on streams of fewer than 2^32 - 1 packets.", "quantifier": "all infinite schedules of writes, timers, deliveries, losses, duplicates, reorderings, acknowledgements and reads that are fair", "why_tests_cant": "liveness under any loss and reordering is a statement about infinite runs", "anchors": ["emissary-core/src/sam/protocol/streaming/stream/active.rs: Stream::{poll,handle_acks,packetize,resend}, InboundContext::handle_packet"]}
{"id": "C245", "title": "The HTTP proxy answers every request", "statement": "A browser that sends a request through the HTTP proxy gets the reply of the destination as it is, or a complete error page whose announced length is its length: 400 with the reason if the request is not understood, 500 with the host if the destination cannot be reached.", "quantifier": "every request, however it is cut into reads, and everything a destination may do", "why_tests_cant": "the bytes of a request, the ways it arrives and the outcomes of connecting are unbounded", "anchors": ["emissary-cli/src/proxy/http/response.rs ResponseBuilder::build", "emissary-cli/src/proxy/http/mod.rs HttpProxy::run, on_request"]}
{"id": "C246", "title": "Error pages show what a request said as text", "statement": "Nothing in a request becomes markup of the error page that the HTTP proxy shows for it.", "quantifier": "every host that a request can name", "why_tests_cant": "the markup that a request may carry is unbounded", "anchors": ["emissary-cli/src/proxy/http/response.rs ResponseBuilder::build", "emissary-cli/src/proxy/http/mod.rs HttpProxy::on_request"]}
{"id": "C247", "title": "Accepted connections come with the address of the peer", "statement": "On every runtime, a connection is reported with the address of the peer, in the order of the backlog, so that the listener turns away exactly the peers with private addresses.", "quantifier": "every backlog of connections and errors, on both runtimes", "why_tests_cant": "depends on the runtime and on what is in the backlog", "anchors": ["emissary-util/src/runtime/tokio.rs TokioTcpListener::poll_accept", "emissary-util/src/runtime/async_std.rs AsyncStdTcpListener::poll_accept", "emissary-core/src/transport/ntcp2/listener.rs Ntcp2Listener::poll_next"]}
{"id": "C248", "title": "Datagrams that are reported as sent are sent", "statement": "On every runtime, the datagrams whose sending is reported are those that the system is handed, in this order and once each; the datagrams that arrive are given to the router in order, none left out; an error while receiving leaves the socket usable, and no datagram panics.", "quantifier": "every sequence of calls, arrivals, errors and steps of the task behind the socket, on both runtimes", "why_tests_cant": "the schedules of the task and the router are unbounded, and the loss needs thousands of queued datagrams", "anchors": ["emissary-util/src/runtime/tokio.rs TokioUdpSocket", "emissary-util/src/runtime/async_std.rs AsyncStdUdpSocket", "emissary-core/src/transport/ssu2/socket.rs READ_BUFFER_LEN"]}
{"id": "C249", "title": "A set of tasks gives each result once", "statement": "The owner of a set of tasks is given the result of every task that finishes exactly once, is told to wait only when it was given all of them, is woken by the next task that is pushed or ends, and is never told that the set ended.", "quantifier": "every history of pushed, finished and panicked tasks and of polls, on both runtimes", "why_tests_cant": "the orders in which tasks finish and polls happen are unbounded", "anchors": ["emissary-util/src/runtime/tokio.rs TokioJoinSet", "emissary-util/src/runtime/async_std.rs AsyncStdJoinSet, FuturesJoinSet"]}
{"id": "C250", "title": "A message crosses two tunnels unchanged", "statement": "A message that a router sends through one of its outbound tunnels to an inbound tunnel of another router is handed over by that router's tunnel exactly as it was sent, once, when its last piece has come. The pieces may be delayed, reordered and mixed with any other traffic on either tunnel, as long as the message gets to the gateway before it expires.", "quantifier": "all pairs of tunnels of any length, all messages, all arrival orders and all other traffic at the endpoint and at the owner", "why_tests_cant": "depends on the fragmentation, the layered encryption of every hop and the reassembly at two places; tests send one message through fixed tunnels in order", "anchors": ["emissary-core/src/tunnel/hop/outbound.rs:OutboundTunnel::send_to_tunnel", "emissary-core/src/tunnel/transit/outbound.rs:OutboundEndpoint", "emissary-core/src/tunnel/transit/inbound.rs:InboundGateway", "emissary-core/src/tunnel/hop/inbound.rs:InboundTunnel"]}
{"id": "C251", "title": "What one destination sends is what the other reads", "statement": "Data that a client gives to its destination for another one is encrypted, sent through any outbound tunnel to any lease of the other destination, and what the other destination reads from it is exactly this data, both for the first messages, before there is an answer, and for those of a session.", "quantifier": "all data, all pairs of tunnels, all states of the two session managers that the steps of a session lead to, all arrival orders", "why_tests_cant": "end to end through sessions and tunnels, for every state of both; no test of the project runs all layers together with all arrival orders", "anchors": ["emissary-core/src/destination/mod.rs:Destination::send_message_inner", "emissary-core/src/destination/mod.rs:Destination::decrypt_message", "emissary-core/src/destination/session/mod.rs:SessionManager::encrypt", "emissary-core/src/destination/session/mod.rs:SessionManager::decrypt"]}
{"id": "C252", "title": "A datagram of a client arrives at the other client as it was sent", "statement": "A datagram that a SAM client sends arrives at the UDP port of the client of the session it is for, with the line that names the sender if the session is for repliable datagrams, and with exactly the bytes that were sent, through compression, session, both tunnels and back.", "quantifier": "all datagrams, all pairs of sessions, all pairs of tunnels, all arrival orders of the pieces", "why_tests_cant": "a statement about the composition of all layers for all inputs and schedules", "anchors": ["emissary-core/src/sam/protocol/datagram/mod.rs:DatagramManager::make_datagram", "emissary-core/src/sam/protocol/datagram/mod.rs:DatagramManager::on_datagram", "emissary-core/src/sam/session.rs:SamSession::on_inbound_message", "emissary-core/src/destination/mod.rs:Destination"]}
{"id": "C253", "title": "SSU2 packets reach their session in order", "statement": "What a session gets is exactly what was addressed to its connection id, in the order of arrival, each packet once.", "quantifier": "Every sequence of datagrams, dials, handshake outcomes, decisions and polls, for every number of sessions.", "why_tests_cant": "Which packets find the channel full, and what other sessions do in between, depends on the schedule.", "anchors": ["emissary-core/src/transport/ssu2/socket.rs: Ssu2Socket::handle_packet, connect, accept, reject, poll_next", "emissary-core/src/transport/ssu2/session/active/mod.rs: Ssu2Session::run"]}
{"id": "C254", "title": "The end of an SSU2 connection leaves the router running", "statement": "When a connection ends, for whatever reason, the peer is told, the transport manager is told, and the router goes on.", "quantifier": "Every history of the socket, every session, every packet of the peer and every termination reason.", "why_tests_cant": "Tests close sessions from the local side or not at all; the panic needs a session that ends inside a running socket.", "anchors": ["emissary-core/src/transport/ssu2/socket.rs: poll_next", "emissary-core/src/transport/ssu2/session/active/mod.rs: handle_packet, run", "emissary-core/src/transport/ssu2/session/terminating.rs: TerminatingSsu2Session::new"]}
{"id": "C255", "title": "The SSU2 socket keeps nothing of connections that are over", "statement": "Entries made for a connection are removed when it fails, is rejected or ends; strangers cannot make the router keep state for ever.", "quantifier": "Every history of the socket.", "why_tests_cant": "A leak is a statement about all histories, not about one.", "anchors": ["emissary-core/src/transport/ssu2/socket.rs: sessions, pending_outbound, unvalidated_sessions"]}
{"id": "C256", "title": "Subsystems hear of every SSU2 connection once", "statement": "The other subsystems are told that a connection is up exactly when it was accepted, and told once that it is down when it ends; rejected and failed connections are never reported.", "quantifier": "Every history, every session, in builds with and without debug assertions.", "why_tests_cant": "Reports depend on the order of handshakes, decisions and packets.", "anchors": ["emissary-core/src/transport/ssu2/session/active/mod.rs: Ssu2Session::run", "emissary-core/src/transport/ssu2/socket.rs: accept, reject"]}
{"id": "C257", "title": "A vanished SSU2 peer is noticed", "statement": "A connection on which nothing arrives any more is closed after a while.", "quantifier": "Every history in which the peer sends nothing, of any length.", "why_tests_cant": "The claim is about unbounded time.", "anchors": ["emissary-core/src/transport/ssu2/session/active/mod.rs: Ssu2Session poll"]}
{"id": "C258", "title": "Messages cross an NTCP2 connection in order", "statement": "At every moment the receiving router has handed on exactly the first so many of the messages that the sending router accepted for the connection, in order and each once, and neither side has ended the session.", "quantifier": "Every infinite schedule of sends, partial writes and partial reads, every socket buffer size, every lawful AEAD, all messages that fit an NTCP2 frame.", "why_tests_cant": "Where TCP cuts the byte stream, and how reads and writes interleave, is up to the schedule.", "anchors": ["emissary-core/src/transport/ntcp2/session/active.rs: Ntcp2Session poll, run"]}
{"id": "C259", "title": "Every message handed to an NTCP2 connection is delivered", "statement": "In every fair schedule every message that was accepted for the connection comes out at the other router, even if the socket takes a byte at a time.", "quantifier": "Every infinite schedule in which writer and reader run again and again; every socket buffer of at least a byte.", "why_tests_cant": "Liveness is a statement about infinite executions.", "anchors": ["emissary-core/src/transport/ntcp2/session/active.rs: Ntcp2Session poll, run"]}
{"id": "C260", "title": "Two routers agree on being connected", "statement": "Whatever two routers ask for and however their connections break, each takes the other for connected exactly while it has an open connection to it, never has two, and when nothing is under way both are of the same opinion.", "quantifier": "Every history of dials, handshake completions at either end in every order, and losses.", "why_tests_cant": "The agreement depends on the interleaving of two routers.", "anchors": ["emissary-core/src/transport/mod.rs: TransportManager::poll, on_dial_router", "emissary-core/src/transport/ntcp2/mod.rs: Ntcp2Transport::accept, reject, connect"]}
{"id": "C261", "title": "Routers that dial each other end up connected", "statement": "When one or both of two routers ask for a connection and no network error occurs, they end up with one working connection.", "quantifier": "Every order in which the handshakes complete at the two ends.", "why_tests_cant": "Simultaneous dials are a race between two routers.", "anchors": ["emissary-core/src/transport/mod.rs: TransportManager::poll", "emissary-core/src/transport/ntcp2/mod.rs: Ntcp2Transport::accept, reject"]}
{"id": "C262", "title": "The NTCP2 transport is woken for everything that waits for it", "statement": "When the transport says that it has nothing to do, nothing waits for it, and whatever happens next wakes it.", "quantifier": "Every state of the listener, the handshakes and the sessions, both runtimes.", "why_tests_cant": "A lost wake-up shows only under particular timings.", "anchors": ["emissary-core/src/transport/ntcp2/mod.rs: Ntcp2Transport::poll_next", "emissary-core/src/runtime/tokio.rs: TokioJoinSet", "emissary-core/src/runtime/async_std.rs: FuturesJoinSet"]}
{"id": "C263", "title": "The transport manager hears once of every NTCP2 handshake and session", "statement": "Each handshake that ends with a session, or that was the router's own and failed, and each session that closes is reported exactly once; accepting and rejecting always finds the session; as many sessions run as were accepted and have not closed.", "quantifier": "Every history of dials, arriving connections, handshakes and sessions that end, polls and decisions; both runtimes; with and without debug assertions.", "why_tests_cant": "It is a count over whole histories.", "anchors": ["emissary-core/src/transport/ntcp2/mod.rs: Ntcp2Transport::poll_next, accept, reject, connect"]}
{"id": "C264", "title": "Requests go to floodfills", "statement": "Searches and stores that a user starts are sent only to routers that said that they are floodfills: those known as such at start-up, and those that connected or published a router info saying so. A router that says so is used from then on. No other router is asked.", "quantifier": "every history of the network database task and every request", "why_tests_cant": "ranges over all histories of stores, connections and searches", "anchors": ["emissary-core/src/netdb/mod.rs: on_database_store, on_connection_established, query_lease_set, query_router_info, publish_router_info", "emissary-core/src/netdb/query.rs: Query::handle_search_reply", "emissary-core/src/netdb/dht.rs: Dht::{add_router,closest}"]}
{"id": "C265", "title": "Every garlic tag that is waited for is watched for", "statement": "As long as a garlic session holds the key for a message with some tag, a message that arrives with this tag is given to that session: no tag is forgotten while its key is kept, whatever messages, ratchets, answers, expirations and other sessions come between, provided that the tag was generated only once.", "quantifier": "every sequence of calls of an identity's garlic code, every tag", "why_tests_cant": "ranges over all histories of all sessions, which share one table of tags", "anchors": ["emissary-core/src/destination/session/mod.rs: SessionManager::{encrypt,decrypt,maintain}", "emissary-core/src/destination/session/session.rs: PendingSession::{advance_outbound,advance_inbound}, Session::{decrypt,maintain,destroy}"]}
{"id": "C266", "title": "Ctrl-C and the button end the program", "statement": "A user who asks for the shutdown once, by Ctrl-C or by the window's button, has the program end when the router's transit tunnels are gone; one who presses Ctrl-C twice has it end in any case. Without a request it runs on. The router is not asked to shut down more often than the user asked.", "quantifier": "every schedule of the event loop in which everything that waits gets its turn, every moment of the requests, with and without port forwarding", "why_tests_cant": "liveness: ranges over infinite schedules of signal handler, window, port mapper, router and transit manager", "anchors": ["emissary-cli/src/main.rs: router_event_loop", "emissary-cli/src/signal.rs: SignalHandler", "emissary-cli/src/port_mapper/mod.rs: PortMapper::{shutdown,poll_next}", "emissary-core/src/router/mod.rs: Router::{shutdown,poll}"]}
{"id": "C267", "title": "The window shows what is true", "statement": "The numbers in the window are those that were true when the router's status timer last fired; the destinations in it are those that were started, once each and in order; the line about the shutdown says active until a shutdown has begun and then counts down ten minutes to the second; uptime, bandwidth and success rate are shown in units that give back the value.", "quantifier": "every sequence of reports, timers, refreshes and clicks; every number", "why_tests_cant": "ranges over all interleavings of the router and the window and over all numbers", "anchors": ["emissary-cli/src/ui/mod.rs: RouterUi::{update,view,calculate_bandwidth}, Status", "emissary-core/src/events.rs: EventManager, EventSubscriber::router_status"]}
{"id": "C268", "title": "The log option says what is logged", "statement": "An option of the form target,target=level,... gives each target the level of its group and nothing else; no option, and no preset, makes the program panic.", "quantifier": "every list of groups of targets and levels, every reading of levels", "why_tests_cant": "ranges over all strings", "anchors": ["emissary-cli/src/logger.rs: parse_log_targets, PRESETS"]}
{"id": "C269", "title": "What is configured is started", "statement": "The router is given every router that is known or was downloaded, and no other; it refuses to start for want of routers exactly if it knows none and a download that was due failed. The proxy, the tunnels and the address book that are configured run.", "quantifier": "every configuration, every result of the download, of the router's start and of the creation of destinations", "why_tests_cant": "ranges over all combinations of settings and failures", "anchors": ["emissary-cli/src/main.rs: setup_router"]}
{"id": "C270", "title": "What a destination sends leaves through one of its own tunnels", "statement": "Whatever a tunnel pool sends for those who use it (a destination, the netDb, another pool with a build request) goes to the first hop of an outbound tunnel that this pool has built, encrypted in layers for the hops of that tunnel, and never directly to the router or tunnel that it is for. Messages are taken in the order in which they were accepted, each one once. They go over the tunnel they name while it is up, or over another one if it is gone, and reach the router or tunnel they are for (with C235). (Proved in part; refuted: a message that was accepted is dropped without notice while the pool has no outbound tunnel, a build request bound to a tunnel that has expired meanwhile is dropped although there are others, and with debug assertions a message that names a tunnel which has expired meanwhile ends the pool.)", "quantifier": "all histories of builds, expirations, messages and polls, all choices of tunnels by the hash map, all messages", "why_tests_cant": "all interleavings of messages with the life of tunnels; a test sees the tunnel it has set up", "anchors": ["emissary-core/src/tunnel/pool/mod.rs: TunnelPool::poll", "emissary-core/src/tunnel/pool/handle.rs: TunnelSender, TunnelMessageSender", "emissary-core/src/tunnel/pool/context.rs: TunnelPoolContextHandle::{send_to_router_with_feedback,send_to_tunnel}, TunnelMessage", "emissary-core/src/tunnel/hop/outbound.rs: OutboundTunnel::{send_to_router,send_to_tunnel}"]}
{"id": "C271", "title": "A session goes on over any number of ratchets", "statement": "Once two destinations have a session they talk for as long as they like: whoever speaks and whatever keys are drawn, every message is sent and is read as what was sent, also the messages that ask for a new tag set, that answer, and that come before the answer, and also when both sides ask at the same time. (Proved in part: for up to 65535 tag sets in each direction, when messages arrive in the order in which they were sent, no tag comes up twice and nobody speaks more often in a row than tags are generated ahead, which is refuted otherwise: a side that is not answered after its ratchet loses its messages after 4096 and 128 of them.)", "quantifier": "all conversations of any length, all draws of keys and all times, all sessions in which no ratchet was made", "why_tests_cant": "the ratchet takes 20000 messages to come, and the second and third forms of it 40000 more", "anchors": ["emissary-core/src/destination/session/session.rs: Session::{encrypt,decrypt,handle_next_key}", "emissary-core/src/destination/session/tag_set.rs: TagSet::{next_entry,try_generate_next_key,handle_next_key,can_ratchet,reinitialize_tag_set}", "emissary-core/src/destination/session/mod.rs: SessionManager::{encrypt,decrypt}"]}
{"id": "C272", "title": "NTCP2 connects to every conforming implementation", "statement": "A peer that follows the NTCP2 specification, whichever implementation it is, is accepted when it dials and is reached when it is dialled, whatever padding it uses and whatever blocks it puts after its router info; both sides have the same keys. (Proved for peers that pad their messages, with padding of any length; refuted for peers that send no padding: the specification leaves empty padding out of the handshake hash and the code puts it in, so the handshake fails.)", "quantifier": "all peers that follow the specification, all keys, paddings, blocks and router infos", "why_tests_cant": "tests connect the code to itself, and both ends make the same deviation", "anchors": ["emissary-core/src/transport/ntcp2/session/responder.rs: Responder::{new,create_session,finalize}", "emissary-core/src/transport/ntcp2/session/initiator.rs: Initiator::{new,register_session_created,finalize}"]}
{"id": "C273", "title": "Keys are derived as the specifications say", "statement": "The keys, tags and nonces with which destinations' sessions, tunnel build records, and SSU2 handshakes and data packets are encrypted are those that the ECIES, tunnel creation and SSU2 specifications derive (HKDF and Noise with the labels given there), for every tag set, ratchet and hop, so that another implementation comes to the same ones.", "quantifier": "all keys, all key material, all positions in a tag set, all hash functions and ciphers", "why_tests_cant": "a test compares the code with itself: the same wrong label on both sides goes unnoticed", "anchors": ["emissary-core/src/destination/session/tag_set.rs: TagSet::{new,next_entry,reinitialize_tag_set}", "emissary-core/src/destination/session/context.rs: KeyContext", "emissary-core/src/tunnel/noise.rs: NoiseContext, InboundSession::{derive_tunnel_keys,finalize}, OutboundSession", "emissary-core/src/transport/ssu2/session: pending, active"]}
{"id": "C274", "title": "Messages have the layout of the specifications", "statement": "What is sent is laid out byte for byte as the I2NP, tunnel message, tunnel creation, ECIES (garlic), streaming and datagram specifications say, and what is laid out so by another implementation is read as what it means: I2NP headers, lookups, stores and their answers, build records, fragments and tunnel messages, cloves and the other blocks of garlic messages, packets of streams, and payloads with their ports and protocols. (Proved in part; refuted for lookups that ask for an encrypted reply: none of them is read.)", "quantifier": "all field values, all payloads, any number of records, blocks, fragments and options", "why_tests_cant": "tests write and read with the same code, so a field in the wrong place on both sides is not seen", "anchors": ["emissary-core/src/i2np/mod.rs: Message, HopRole", "emissary-core/src/i2np/database/lookup.rs: DatabaseLookup", "emissary-core/src/i2np/database/store.rs: DatabaseStore", "emissary-core/src/i2np/tunnel/build/short.rs: TunnelBuildRecord", "emissary-core/src/i2np/tunnel/data.rs: TunnelData, TunnelDataBuilder", "emissary-core/src/i2np/garlic.rs: GarlicMessage", "emissary-core/src/destination/protocol/streaming/packet.rs: Packet, PacketBuilder", "emissary-core/src/i2cp/payload.rs: I2cpPayload"]}
{"id": "C275", "title": "Lease sets and router infos have the layout of the specification", "statement": "Lease sets and router infos are made as the common structures specification says, with the signature over the bytes that it says, and every one that is made so by another implementation is read as what it means: with any options, further keys of types that are not known, any number of addresses. (Proved in part: for lease sets with a key for ECIES signed by the destination itself or by a transient key, and for router infos with addresses for NTCP2 and SSU2; refuted for lease sets that have only keys of other types, for those with a transient key of a destination with a DSA key, and for router infos that list an address for any other transport besides: the whole router info is rejected.)", "quantifier": "all destinations, times, options, keys, leases and addresses", "why_tests_cant": "tests write and read with the same code and a few recorded files", "anchors": ["emissary-core/src/primitives/lease_set.rs: LeaseSet2, LeaseSet2Header", "emissary-core/src/primitives/router_info.rs: RouterInfo", "emissary-core/src/primitives/router_address.rs: RouterAddress", "emissary-core/src/primitives/mapping.rs: Mapping"]}
{"id": "C276", "title": "SSU2 connects to every conforming implementation", "statement": "A router that dials a peer over SSU2 sends token request, `SessionRequest` and `SessionConfirmed` byte for byte as the specification says, and has a session with the keys of the specification whatever retry, token, packet numbers, keys and payloads the peer chooses; a router that is dialled answers every token request, `SessionRequest` and `SessionConfirmed` of the specification as it says and has the same session. (Proved in full for dialling; in part for being dialled: for payloads of blocks that the code knows or passes over, and a router info that is not compressed and fits one packet. Refuted for blocks of unknown types, which the specification tells implementations to ignore, and for compressed router infos.)", "quantifier": "all keys, connection ids, tokens, packet numbers, times, paddings and sequences of blocks", "why_tests_cant": "the tests run the code against itself, so a mistake made on both sides is not seen", "anchors": ["emissary-core/src/transport/ssu2/session/pending/outbound.rs: OutboundSsu2Session", "emissary-core/src/transport/ssu2/session/pending/inbound.rs: InboundSsu2Session", "emissary-core/src/transport/ssu2/message.rs: TokenRequestBuilder, RetryBuilder, SessionRequestBuilder, SessionCreatedBuilder, SessionConfirmedBuilder, Block, HeaderReader"]}
{"id": "C277", "title": "Tunnels are built through routers of any implementation", "statement": "Whoever builds a tunnel sends records from which every router that follows the tunnel creation specification, whichever implementation it is, reads its ids, next router, role and times, and comes to the keys that the creator has for it; whatever these routers answer, in whichever way the answers come back, the creator has a tunnel through them exactly if all of them agreed. A router that is asked by any implementation, with any options, padding and other records, reads the record, decides by its own limits, answers as the specification says and passes the records on to where it was told. (Short build messages, ECIES.)", "quantifier": "all sequences of one to eight routers, all keys, ids, times, options, paddings and answers, both directions", "why_tests_cant": "the tests build tunnels through the code itself, so a mistake made on both sides is not seen", "anchors": ["emissary-core/src/tunnel/hop/pending.rs: PendingTunnel::{create_tunnel,try_build_tunnel}", "emissary-core/src/tunnel/transit/mod.rs: TransitTunnelManager::handle_short_tunnel_build", "emissary-core/src/tunnel/noise.rs: NoiseContext, InboundSession, OutboundSession", "emissary-core/src/i2np/tunnel/build/short.rs: TunnelBuildRecord"]}
{"id": "C278", "title": "What the network database says arrives as it was meant", "statement": "A published lease set arrives at the floodfill it was sealed to as a store of exactly that lease set under that key, with the confirmation to come through the tunnel that was chosen and under the token drawn; a lookup arrives as a lookup of that kind for that key, to be answered through the tunnel that was chosen; answers, floods and confirmations arrive, through a tunnel, at a router or at the gateway of a tunnel, as what they say. (Refuted when the token drawn is zero, which nothing excludes: the store then cannot be read, or at any rate not as the one that was sent, and no confirmation is asked for.)", "quantifier": "all keys, lease sets and router infos, tunnels, tokens, message ids, times, floodfill keys and ephemeral keys", "why_tests_cant": "the messages are made and read in different tasks and routers; a token of zero is drawn once in 2^32 times", "anchors": ["emissary-core/src/destination/lease_set.rs: LeaseSetManager::{create_database_store,create_database_lookup}", "emissary-core/src/netdb/query.rs: create_lease_set_query, create_router_info_query, create_router_exploration", "emissary-core/src/netdb/mod.rs: NetDb::{on_message,on_database_store,on_lease_set_lookup,on_router_info_lookup,on_router_exploration,publish_router_info}", "emissary-core/src/tunnel/garlic.rs: GarlicHandler::handle_message"]}
{"id": "C279", "title": "A published lease set is found", "statement": "From the bytes a destination publishes to the answer a client gets: once a floodfill has unpacked the store of a lease set, whoever looks the destination up there while the lease set is current, whatever else the floodfill did in between, is sent it through the tunnel their lookup names, and everyone who waits for that destination at the router that asked is given the lease set that was published. (Proved until the first of the times of expiration in the lease set, and while nobody else stores a lease set under the key: C141.)", "quantifier": "all lease sets, histories of the floodfill before and after the store, states of the router that asks, tunnels, times and keys", "why_tests_cant": "spans the publisher, the floodfill, the asking router and the bytes between them, with any history at each", "anchors": ["emissary-core/src/destination/lease_set.rs: LeaseSetManager::create_database_store", "emissary-core/src/netdb/query.rs: create_lease_set_query", "emissary-core/src/netdb/mod.rs: NetDb::{on_message,on_lease_set_store,on_lease_set_lookup,on_database_store}", "emissary-core/src/i2np/database/store.rs: DatabaseStore", "emissary-core/src/tunnel/garlic.rs: GarlicHandler::handle_message"]}
{"id": "C280", "title": "Destinations talk with those of other implementations", "statement": "A destination of any implementation of the ECIES-X25519-AEAD-Ratchet specification can open a session with a client of this router, and the client with it. A request of the peer, whatever blocks it carries, is read; every answer the client sends has the tag of its number, can be opened by the peer with the keys of the specification and carries the message; then the peer's messages are read in whatever order they come and the client's can be read by the peer. The other way round, the client's request can be read by the peer and carries lease set and message, any of the answers the peer may send is read, and from then on both sides read each other. (Proved before the first ratchet and for messages among the first that are watched for. Violated for a request without database store: it is refused although its keys are right.)", "quantifier": "all keys, ephemeral keys, block lists, numbers of answers, answers chosen, numbers and orders of later messages, and states of the client without a session with the peer", "why_tests_cant": "the peer is a different program: what counts is that the bytes are those of the specification for every key and every sequence of messages", "anchors": ["emissary-core/src/destination/session/mod.rs: SessionManager::{encrypt,decrypt}", "emissary-core/src/destination/session/context.rs: KeyContext", "emissary-core/src/destination/session/inbound.rs: InboundSession", "emissary-core/src/destination/session/outbound.rs: OutboundSession", "emissary-core/src/destination/session/session.rs: PendingSession, Session", "emissary-core/src/destination/session/tag_set.rs: TagSet", "emissary-core/src/i2np/garlic.rs"]}
{"id": "C281", "title": "Tunnels carry messages with routers of any implementation", "statement": "In each of its places in a tunnel the router works with routers of any implementation of the tunnel message specification. As owner of an outbound tunnel it sends messages that, once the other routers have each encrypted them as specified, the endpoint has in the clear, with the pieces of the message in order; as owner of an inbound tunnel it reads whatever a gateway put in the clear text, after any number of routers; as endpoint it reads what its step uncovers; as gateway it sends clear text of the specified form after its own step; as participant it does the specified step and passes the result on under the next router's id. The pieces of any cut of a message give the message when the last of them comes, in any order, with repetitions and with other fragments between them.", "quantifier": "all keys, numbers of routers, messages that fit, cuts, delivery instructions, paddings, IVs, numbers of parts in a message, orders of arrival", "why_tests_cant": "the other routers are different programs: they may cut messages elsewhere, put several parts in one message and pad differently than this router does", "anchors": ["emissary-core/src/tunnel/hop/outbound.rs: OutboundTunnel::send_to_router, send_to_tunnel", "emissary-core/src/tunnel/hop/inbound.rs: InboundTunnel::handle_tunnel_data", "emissary-core/src/tunnel/transit/participant.rs: Participant::handle_tunnel_data", "emissary-core/src/tunnel/transit/outbound.rs: OutboundEndpoint::handle_tunnel_data", "emissary-core/src/tunnel/transit/inbound.rs: InboundGateway::handle_tunnel_gateway", "emissary-core/src/tunnel/fragment.rs: FragmentHandler", "emissary-core/src/i2np/tunnel/data.rs: TunnelDataBuilder, TunnelData, EncryptedTunnelData"]}
{"id": "C282", "title": "What a client wrote before it closed is delivered", "statement": "What a client wrote to a stream before it closed it, or before the peer closed its direction, is kept and sent again until the peer has acknowledged all of it; only then is the stream forgotten. (The code keeps the packets, and a task that ends because of its client has had them all acknowledged; but when the peer closes, it forgets the stream at the next acknowledgement, with whatever is unacknowledged or has not been sent.)", "quantifier": "every history of packets, reads, writes, timers, full channels and ends of either socket", "why_tests_cant": "the loss needs a close that crosses data on its way; tests close streams that are idle", "anchors": ["emissary-core/src/sam/protocol/streaming/stream/active.rs: Stream::on_packet, shutdown, poll, InboundContext::can_close"]}
{"id": "C283", "title": "Each direction of a stream closes on its own", "statement": "A client that has stopped writing still receives what the peer goes on to send, and a peer that has stopped writing still receives what the client goes on to write. (The code gives the client nothing after it has stopped writing, not even the rest of a message given in part, and reads nothing of the client after the peer has stopped; until then what is given is what the peer wrote, in order and without a gap.)", "quantifier": "every history of the stream after the close, with any packets and any behaviour of the client's socket", "why_tests_cant": "it is a statement about everything that may follow; the tests never send after a close", "anchors": ["emissary-core/src/sam/protocol/streaming/stream/active.rs: Stream::on_packet, shutdown, poll"]}
{"id": "C284", "title": "A stream whose peer has vanished ends", "statement": "A stream whose peer no longer answers is given up after a bounded number of retransmissions, and its client's socket is closed. (The code never gives up: without a packet of the peer, the loss of the path or the end of the session the task goes on for ever, also after the client has closed the stream or the session has asked it to shut down.)", "quantifier": "every history without an event from outside, of any length", "why_tests_cant": "no test can wait for ever; that nothing ends the task is a statement about all histories", "anchors": ["emissary-core/src/sam/protocol/streaming/stream/active.rs: Stream::resend, shutdown, poll"]}
{"id": "C285", "title": "A client that accepts a stream is told whom it is from", "statement": "The first line that a client reads from an accepted or forwarded stream is the destination of the peer, to which it can connect in turn; then comes all that the peer sent, in order, beginning with what came before the client was there. (The code writes the hash of the destination, in base 64, in place of the destination: a `STREAM CONNECT` to what is in the line is refused. The order holds, and different peers have different lines.)", "quantifier": "all destinations, all data that came before the listener, all histories of the stream", "why_tests_cant": "the existing tests compare the line with the same hash that the code writes; that no destination can be read from it is a statement about every destination", "anchors": ["emissary-core/src/sam/protocol/streaming/mod.rs: StreamManager::spawn_stream", "emissary-core/src/sam/protocol/streaming/stream/active.rs: Stream::new", "emissary-core/src/sam/parser.rs: SamCommand"]}
{"id": "C286", "title": "Streams open with peers of any implementation", "statement": "A SYN of any peer that follows the streaming specification, with a key of any kind, any options and any data, opens a stream; the answer of any such peer opens the stream that waits for it; and the router's own SYN and answer have the layout, flags and signature of the specification. The code accepts a SYN only if it repeats the hash of the addressee in the NACK field: peers that leave the field empty, as older implementations do, are ignored.", "quantifier": "every peer, key, signature scheme, choice of options, data and NACKs, and every state of the stream manager", "why_tests_cant": "tests open streams between two instances of the same code, with the options that this code sets", "anchors": ["emissary-core/src/sam/protocol/streaming/mod.rs:StreamManager::on_synchronize", "emissary-core/src/sam/protocol/streaming/mod.rs:StreamManager::create_stream", "emissary-core/src/sam/protocol/streaming/packet.rs:PacketBuilder::build_and_sign"]}
{"id": "C287", "title": "Only the peer ends a stream", "statement": "A stream is closed or reset only by a packet that its peer has signed. The code checks no signature after the SYN: anyone who knows the number of a stream ends it with an unsigned RESET or CLOSE. What holds is that packets with other numbers do not reach the stream.", "quantifier": "every open stream, every state of its task and every sender", "why_tests_cant": "tests send packets only from the peer, and never one without a signature where one is required", "anchors": ["emissary-core/src/sam/protocol/streaming/stream/active.rs:Stream::on_packet", "emissary-core/src/sam/protocol/streaming/mod.rs:StreamManager::on_packet"]}
{"id": "C288", "title": "A stream keeps to what its peer asks for", "statement": "A stream sends no packet larger than its peer takes, and none while the peer asks it to wait. The code reads neither the size nor the delay: it sends 1812 bytes of data at once whatever the peer asks for, although 1730 is the size of the specification. What holds is that no packet has more than 1812 bytes of data and that all packets under a number have the same data.", "quantifier": "every packet of the peer, every state and every history of the task", "why_tests_cant": "tests use peers that ask for nothing", "anchors": ["emissary-core/src/sam/protocol/streaming/stream/active.rs:Stream::on_packet", "emissary-core/src/sam/protocol/streaming/stream/active.rs:Stream::packetize", "emissary-core/src/sam/protocol/streaming/stream/active.rs:MTU_SIZE"]}
{"id": "C289", "title": "Tests of tunnels tell whether they work, and tunnels that fail are no longer used", "statement": "A pool of tunnels tests them by sending itself a message through an outbound and an inbound tunnel. When both tunnels carry messages the test succeeds, it succeeds only if they do, and tunnels whose test fails are no longer used. Only the first holds: a test of working tunnels is one tunnel message that crosses both and is given to the test. But any garlic message with the number of the test ends it well, and the result of a test changes neither which tunnels the pool has nor which are used.", "quantifier": "every pair of tunnels of any length with any keys, every number of a test, every state of the pool, and every set of tests that end at a poll", "why_tests_cant": "A test runs one pair of mock tunnels; that a failed test changes nothing about the use of tunnels is about every state of a pool and every later poll.", "anchors": ["emissary-core/src/tunnel/pool/mod.rs: TunnelPool::maintain_pool, poll", "emissary-core/src/tunnel/pool/context.rs: TunnelPoolContext, TunnelMessageRecipient", "emissary-core/src/tunnel/pool/selector.rs: register_tunnel_test_failure, register_tunnel_test_success"]}
{"id": "C290", "title": "Datagrams are exchanged with clients of any implementation", "statement": "A datagram in the format of the specification, written by any client, is given to the SAM client with the destination that it is from, and a datagram of a SAM client is in this format. This holds for raw datagrams and for repliable ones from destinations that sign with Ed25519 or P-256, whatever their key for encryption and however they were compressed. Repliable datagrams from destinations with other signature types and datagrams of the newer formats (protocols 19 and 20) are dropped.", "quantifier": "every destination of the specification, every signature, data, ports and compressed form, and every datagram of a client", "why_tests_cant": "tests send datagrams only between two clients of this program", "anchors": ["emissary-core/src/sam/protocol/datagram/mod.rs: DatagramManager::make_datagram, on_datagram", "emissary-core/src/i2cp/payload.rs: I2cpPayload::decompress, I2cpPayloadBuilder::build", "emissary-core/src/primitives/destination.rs: Destination::parse_frame"]}
{"id": "C291", "title": "A stream opens across the network", "statement": "Two clients, on two routers, that know nothing of each other apart from the lease set of the one that is called: a stream that the first one requests is opened on both sides, for the destination that called and the destination that was called. The SYN is carried in the request for a garlic session through the tunnels of both, the SYN-ACK in the reply, the next packet establishes the session, and every packet after that gets to the stream manager of the other client as it was sent, with its ports.", "quantifier": "all tunnels (any number of hops, keys, padding), all orders, delays and mixtures with other traffic on them, all destinations, stream ids, ports, keys and random numbers of both clients, all packets after the opening", "why_tests_cant": "Needs tunnels of several routers, two sessions and two clients, with every order in which pieces may arrive; tests use a handful of hops in memory and stop at the boundary of a module.", "anchors": ["emissary-core/src/destination/mod.rs: Destination::send_message_inner, decrypt_message", "emissary-core/src/destination/session/mod.rs: SessionManager::encrypt, decrypt", "emissary-core/src/sam/session.rs: SamSession::on_inbound_message", "emissary-core/src/sam/protocol/streaming/mod.rs: StreamManager::create_stream, on_synchronize, register_listener"]}
{"id": "C292", "title": "Two streams and the network between them", "statement": "Two streams of this implementation that send to each other, over a network that may lose, repeat, delay and reorder their packets, while each client writes, reads and closes as it likes: what each client has read is at any time a beginning of what the other one has written. A stream whose client has closed it ends once the other end has taken everything, because its CLOSE is acknowledged.", "quantifier": "all histories of the two tasks: writes, reads, partial writes, closes, shutdowns, timers, full channels, at both ends in every interleaving, and every order, loss and repetition of the packets that either has sent", "why_tests_cant": "The histories of two concurrent tasks and a network are unbounded; a test runs one schedule, with a peer written by hand that acknowledges whatever it likes.", "anchors": ["emissary-core/src/sam/protocol/streaming/stream/active.rs: Stream::poll, on_packet, shutdown, handle_acks, InboundContext::handle_packet"]}
{"id": "C293", "title": "A SAM session is established when the network is ready and has tunnels for it", "statement": "A request for a SAM session is answered with success only once the network database is ready and the session has at least one inbound and one outbound tunnel that was built and has not expired. If the network database, the tunnel manager and the pool keep working the session is established; if one of them is gone the request is refused.", "quantifier": "every history, finite or endless, of full channels, answers, dropped requests, tunnels built and expired, and a pool that is closed", "why_tests_cant": "depends on the interleaving of four tasks; liveness over endless schedules", "anchors": ["emissary-core/src/sam/pending/session.rs: PendingSamSession::run", "emissary-core/src/netdb/handle.rs: NetDbHandle::wait_until_ready", "emissary-core/src/tunnel/handle.rs: TunnelManagerHandle::create_tunnel_pool"]}
{"id": "C294", "title": "The packets of a stream carry its ports", "statement": "All packets of a stream that a client opens come from the port and go to the port that its command gives, 0 if it gives none; all packets of a stream that a remote opens come from the port that was called and go to the port that called.", "quantifier": "every history of streams opened by clients and remotes, resent and accepted, with and without listeners", "why_tests_cant": "holds for every interleaving of any number of streams, over their whole lives", "anchors": ["emissary-core/src/sam/protocol/streaming/mod.rs: StreamManager::{create_stream,on_synchronize,on_packet,on_listener_ready,poll_next}", "emissary-core/src/sam/protocol/streaming/stream/active.rs: Stream::new"]}
{"id": "C295", "title": "A message of an I2CP client is not sent after its time", "statement": "A client gives with a message the time until which it is to be sent; the router drops the message when this time has passed. The code ignores it: a message that has expired when the client gives it is sent, and so is one that has expired while it waited for the lease set of its destination. What holds is that a message is sent only when the client gives it or when the lease set that it waited for is found, and that no other message is ever sent.", "quantifier": "every session, every history of messages and answers and every time at which they happen", "why_tests_cant": "that a message is never sent late is about every delay between the request of a client and the answer of the network", "anchors": ["emissary-core/src/i2cp/session.rs: I2cpSession::on_message", "emissary-core/src/i2cp/message/mod.rs: Message::SendMessageExpires"]}
{"id": "C296", "title": "The tunnels of a client are as many and as long as it asks for", "statement": "A client says with its options how many tunnels it wants in each direction and how many hops they have; it gets 3 tunnels of 2 hops if it does not say. For an I2CP client this is so, whichever routers are known and whatever they answer, if it wants tunnels of 1 to 8 hops. A client that wants tunnels without hops (as the specification allows), or more than 8, gets no tunnel at all, and the options of a SAM client are ignored: its tunnels always have 2 hops.", "quantifier": "all options, all numbers below 2^64, all sets of known routers and random choices, all answers of the routers", "why_tests_cant": "Whether a tunnel has the right length depends on the selection of routers, the request and the answers, for every number that can be asked for; tests use the defaults.", "anchors": ["emissary-core/src/tunnel/pool/mod.rs: TunnelPoolConfig::from, TunnelPool::maintain_pool", "emissary-core/src/i2cp/pending.rs: PendingI2cpSession::on_message", "emissary-core/src/sam/mod.rs: SamServer::poll", "emissary-core/src/tunnel/pool/selector.rs: select_hops", "emissary-core/src/tunnel/hop/pending.rs: create_tunnel, try_build_tunnel"]}
{"id": "C297", "title": "A tunnel pool keeps listeners only for messages that are waited for", "statement": "When a build of a tunnel or a test of a tunnel ends, for whatever reason, the tunnel pool forgets the listener for its message: at any time there are listeners only for the message ids of builds and tests that are still running. The code forgets the listener when the answer arrives, when the request cannot be made or sent and when the answer to a build is too late, but not when the first router of a build cannot be dialled, and not when the message of a test is too late. So every such build and every such test leaves a listener for ever.", "quantifier": "every history of builds, tests, results of dials, timeouts and messages; every number of failed dials and late tests", "why_tests_cant": "a test sees one build or one test of a tunnel; the listeners that stay are few in a short run and matter only after the pool has run for long", "anchors": ["emissary-core/src/tunnel/pool/mod.rs: maintain_pool", "emissary-core/src/tunnel/pool/listener.rs: add_pending_tunnel", "emissary-core/src/tunnel/pool/context.rs: add_listener, remove_listener"]}
{"id": "C298", "title": "A SAM client is answered before it has a session as it is afterwards", "statement": "On a connection that has not created a session yet, each command that does not end this stage (the greeting, lookups of names, requests for new keys) is answered by exactly one line in the form of the SAM specification, in the order of the commands, and a name that can be found is found. The last part does not hold: every name is answered with KEY_NOT_FOUND, also one whose destination a session of the same router finds at once, although the specification allows lookups without a session.", "quantifier": "every history of commands and polls; every name, session and encoding of keys", "why_tests_cant": "a test asks for one name that does not exist and sees the right answer", "anchors": ["emissary-core/src/sam/pending/connection.rs: PendingSamConnection", "emissary-core/src/sam/session.rs: on_naming_lookup"]}
{"id": "C299", "title": "An SSU2 session can send every message it is given", "statement": "A message that the router sends to another router over an established SSU2 session is cut into packets without the session failing. This holds for all messages with a payload of 1 to 65526 bytes, and so for every message that came from the network: with a short header, for the gateway of a tunnel, or in a tunnel with less than 65536 bytes. It does not hold for messages without a payload and for those with 65527 to 65536 bytes, which end the session with a panic; of longer ones only a part is sent.", "quantifier": "every message, every received byte string", "why_tests_cant": "the sizes at the limits of the length field are not tried by tests, and that no forwarded message reaches them is a fact about all inputs of several parsers", "anchors": ["emissary-core/src/transport/ssu2/session/active/mod.rs: send_message", "emissary-core/src/i2np/mod.rs: parse_short, serialize_short, parse_standard", "emissary-core/src/i2np/tunnel/gateway.rs: TunnelGateway::parse"]}
{"id": "C300", "title": "A stream ends only for a reason", "statement": "A stream goes on until there is a reason to end it: a RESET or CLOSE of the peer, the client's end of its socket or of its session together with the peer's acknowledgements, a packet with data whose number is more than 512 beyond the next one, the loss of the path or the end of the manager. It does not hold in two cases, where the task of the stream panics: a SYN that comes again while the channel to the session is full, and, in builds that check overflows, a packet with data after the number 2^32-1.", "quantifier": "every history of packets, socket events, timers and full channels, and every number the stream begins with", "why_tests_cant": "a test runs a few packets through a stream; that no other sequence of packets, timers and full channels ends it is a claim about all histories", "anchors": ["emissary-core/src/sam/protocol/streaming/stream/active.rs: Stream::poll, Stream::on_packet, Stream::shutdown, InboundContext::handle_packet"]}
{"id": "C301", "title": "Streams of one session do not disturb each other", "statement": "What happens on one stream of a SAM session has no effect on its other streams: each is in the state that it would have if it were the only one, and the end of one does not end the others. It holds as long as no stream panics. If one does, the session and all its streams end with it: after a SYN that comes again while the channel to the session is full, and in builds that check overflows after two packets of a peer, one with the number 2^32-1 before the client has accepted the stream and one with data later.", "quantifier": "every history of any number of streams, and every packet that peers may send", "why_tests_cant": "interleavings of several streams and the failure of one of them are not tried by tests, which run one or two streams without failures", "anchors": ["emissary-core/src/sam/protocol/streaming/mod.rs: StreamManager::poll_next, spawn_stream", "emissary-core/src/sam/session.rs: SamSession::poll", "emissary-core/src/sam/protocol/streaming/stream/pending.rs: PendingStream::on_packet_inner", "emissary-util/src/runtime/tokio.rs: TokioJoinSet::poll_next"]}

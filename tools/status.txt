C01|proved|closed loop with an arbitrary network, and the receiver against any consistent peer
C02|proved|any arrival order of all packets; and quiescent closed loop
C03|partial|holds between two emissary endpoints and against any peer while at most 255 packets are missing; violated when more than 255 are missing (NACK list cut) and by the CLOSE packet (no NACKs)
C04|proved|exact boundary, effect of a refusal, growth bound, and never hit by a peer running the same code
C05|proved|every history of writes, flushes, retransmissions and arbitrary acks
C06|proved|every history of writes, flushes, retransmissions and arbitrary acks; closed loop version
C07|partial|violated: a close can overtake data, and data already received can be dropped when the socket is blocked; the proved part says the stream never ends while a known gap exists
C08|partial|violated under reordering before accept; proved for in-order arrival, plus the buffer bound
C09|partial|violated: an accept answer arriving after a forward was admitted, or a failed forward answer, kills the listener; exclusion, single use, order and no-panic are proved for every history
C10|proved|
C100|partial|violated: local messages are confirmed even if they are lost
C101|proved|assuming that no record of an earlier hop happens to start with the hash of a later one
C102|proved|
C103|partial|violated: the answers are given to the hops in reverse order; fair when they read the same both ways
C104|proved|provided other parts of the router do not remove ids of transit tunnels
C105|partial|violated by garlic messages shorter than 12 bytes (log line, slice); proved for all others
C106|partial|violated for every request: the length is written at the offset of an unstripped record
C107|partial|violated for every request
C108|partial|proved for every history and total filter; violated if the clock is set back (lookups subtract times)
C109|proved|
C11|partial|round trip for every packet whose signature, if any, comes with the destination; violated otherwise: a signature without destination is read as empty
C110|proved|
C111|proved|
C112|proved|
C113|proved|secure mode
C114|proved|for lawful sealing and symmetric Diffie-Hellman; Elligator2 is assumed to decode what it encodes for the keys drawn; no two tags watched for are equal for the last part
C115|partial|proved for one tag set (below the ratchet threshold), for sending and for receiving in any order with any losses within the window, and over any number of ratchets for messages in order (C271); violated: after as many consecutive losses as tags are watched for, the session is deaf for good; missing: losses across a ratchet
C116|partial|violated: an accepted request is accepted again and its contents are delivered again; tags of established sessions are used once (C54)
C117|partial|violated: a reply or first message that cannot be decrypted, or a reply to an attempt that was given up, breaks the pending session, which refuses everything until it expires; damage to established sessions is harmless (C115_damaged_partial)
C118|partial|violated: messages under 12 bytes abort; with assertions on, acknowledgments in requests and short replies too; proved without assertions for messages of at least 12 bytes in every reachable state, if every representative decodes
C119|partial|violated if both open at the same time: no session until the attempts expire; proved: every message sent before a session exists is delivered with the lease set; if one side opens, with any number of requests and replies, whichever arrive first, a session is established both ways, and every conversation up to the first ratchet is delivered in any order, and over any number of ratchets in order (C271)
C12|partial|proved end to end (cut, layers, reassembly in any order) up to 64 pieces; violated for every larger message: fragment numbers wrap silently and nothing is delivered
C120|partial|violated: the peer goes on with the old session
C121|partial|violated: an acknowledgment of an older lease set cancels the newer one; proved that messages carry the newest one until then, and that publishing sends it if and only if no acknowledgment is awaited
C122|partial|violated: sessions that only send are dropped, without an event; proved that recent receipt or sending of the lease set keeps a session
C123|partial|violated from the seventeenth reply on; the tags of the first ones are watched for
C124|proved|
C125|proved|
C126|partial|violated: every store of the same lease set is kept again until it expires; proved: only announced and unexpired leases are kept
C127|proved|reply tags of an idle session that is dropped by the first maintenance after ten minutes are not among those forgotten
C128|partial|deliveries proved for all histories; violated: a garlic message of less than twelve bytes panics; that nothing else does is proved for release builds
C129|partial|proved if nothing is late by more than fifteen seconds; violated without: an inbound tunnel that ends before its rebuild timer is seen makes the pool build one tunnel too many for good
C13|proved|
C130|proved|
C131|partial|proved while no event was lost; violated: an event is lost for good when the owner's queue of 64 is full
C132|partial|proved while the pool runs; violated on shutdown: tunnels being built stay in the routing table and all tunnels in the selector
C133|proved|
C134|partial|proved if no inbound tunnel panics; violated: a panic of one inbound tunnel's task silently ends the pool
C135|proved|
C136|partial|violated: a store of the other kind, or a fetch for the same key, cancels a query, and a request for a key that is being fetched is cancelled at once; proved: nothing else cancels one
C137|partial|violated: whatever lease set is stored under the key is the answer, even of another destination or expired; proved: an answer was stored under the key after the request
C138|partial|proved for lease sets; violated for router infos
C139|partial|violated for direct answers to lookups, which are lost without a connection; all else proved
C14|partial|violated with inconsistent fragment numbers, and incomplete messages are never dropped; otherwise what is handed over is exactly fragments 0..n
C140|partial|violated for lookups that do not say what they look for, which are not answered; all other lookups proved
C141|partial|violated: dropped when the first lease expires, and replaced by older lease sets or those of other destinations; proved: served until the first expiration
C142|partial|violated: never removed, and stored under any key; proved: only recent ones of this network are accepted
C143|partial|violated for answers to queries (no check) and fetched ones (age); proved for the rest
C144|proved|
C145|proved|
C146|partial|violated: the two intervals are swapped; the rest proved
C147|partial|violated: the timer of an answered lookup ends a later one for the same key; proved: only floodfills that were asked are charged
C148|partial|violated: the same floodfill may be sent a record twice; the rest proved
C149|proved|
C15|proved|
C150|partial|violated in debug builds: a short data message stops the program (C150_debug_violated); the rest is proved
C151|partial|violated: later messages overtake (C151_overtaken_violated), and messages can wait although the remote is reachable (C151_stuck_violated); conservation and release are proved
C152|partial|violated: expired lease sets replace valid ones, and answers may be of someone else; proved: messages change it only to one the remote signed
C153|partial|violated: an answer of the database forgets earlier leases; proved for replacements by the remote
C154|proved|
C155|partial|violated: no query and no answer while the known lease set is valid; proved: the end of a query answers all
C156|proved|
C157|proved|
C158|proved|restricted to histories without new tunnels, as the claim says; an example shows that new tunnels break the pace
C159|partial|violated: any lease set under the destination's key, whatever is in it, stops the publisher during a verification
C16|proved|
C160|proved|the 15 seconds are counted while there are a tunnel, a floodfill and room in the tunnel pool
C161|partial|violated: a dropped request ends the publisher; C161_only_partial: nothing else does
C162|partial|violated: one unauthenticated search reply chooses the next router; replies for other keys change nothing
C163|proved|
C164|partial|holds for the first line and for lines that arrive one by one; violated for lines that arrive together, for lines that arrive in parts after a longer one, and for long lines
C165|partial|holds for keys and values of the usual form; violated: an option with a hyphen hides all options after it, escapes are not undone, empty quoted values
C166|partial|no command panics and the three forms are understood; violated: text after .b32.i2p is ignored and ids of any length are accepted
C167|partial|well-formed datagrams are understood; violated: a datagram of fewer than four bytes stops the router
C168|proved|
C169|partial|violated: a session that fails while it waits for tunnels blocks its name and destination for ever; proved for sessions that were in use and for new names
C17|proved|
C170|partial|violated: commands for missing, waiting or busy sessions, host names without an address book and refused tunnel pools get no answer, and answers about duplicates lack the line feed; proved otherwise
C171|partial|violated: a datagram of fewer than four bytes or a panic in one task ends the server; proved that nothing else does
C172|proved|
C173|partial|violated: a datagram whose write fails is lost; proved otherwise
C174|partial|violated: a second lookup that needs the same lease set replaces the first, which is never answered
C175|proved|datagrams whose lease set is not found are discarded, see the hypothesis of C175_order
C176|partial|violated: sockets waiting for a lease set are dropped when another stream to the destination is opened or rejected; answers after a failed query lack the line feed; datagram sessions drop sockets
C177|partial|violated: signatures are not checked, ports are swapped, a port that is not a number stops the session, DSA signatures are cut wrongly, a full channel loses datagrams
C178|proved|gzip is a parameter with the assumption Gzip.Ok
C179|partial|Proved for any segmentation and interleaving: messages of complete frames are seen once and in order, and all of them once polled often enough, for frames of at most 65535 bytes that do not hit a debug assertion. Violated: the header of a frame of more than 65535 bytes makes the task panic.
C18|partial|violated: payloads over the 16-bit size field are truncated silently; proved exact up to the limit
C180|proved|Any interleaving and any behaviour of the stream.
C181|partial|Proved for SetDate, BandwidthLimits, MessagePayload and SessionStatus. Violated: HostReply announces one byte less than it has and RequestVariableLeaseSet two, so the client loses the framing; after a failed lookup it waits for more than 16 MB; a request without leases panics.
C182|partial|Field values proved for HostLookup, SendMessageExpires, CreateLeaseSet2; signatures proved for CreateSession and CreateLeaseSet2. Violated: private keys of a lease set are not compared with it and may be missing; trailing bytes hit a debug assertion. The date of CreateSession is not checked (no clock in the parser).
C183|partial|violated: a message for a destination that is being looked up for another reason is lost, and messages are dropped without notice if the lease set is not found
C184|partial|violated: a lookup of a hash that is already being looked for is never answered; without an address book lookups of hashes fail
C185|proved|
C186|partial|violated: DestroySession does not end the session, keys of later lease sets are ignored, lease sets are unpublished by default
C187|partial|violated: more tunnels than wanted, no inbound tunnels, lookups, DestroySession and foreign lease sets
C188|partial|violated: ids repeat and a client can end the server
C189|proved|
C19|proved|
C190|partial|violated: multicast addresses and nearly all of 0.0.0.0/8 count as public; the blocks the code knows are proved
C191|partial|violated: bytes already read are lost with a read that is given up; the rest is proved
C192|partial|violated: between two agings at most 2048 new messages are let through; repeats and forgetting are proved
C193|partial|violated: an answer before the notice was seen is not heard, and a handle given out after the request is not told; the rest is proved
C194|proved|
C195|partial|violated: reports are lost when the reader is 64 events behind or 64 destinations start at once; proved otherwise
C196|partial|violated: the event that the router has shut down is never sent; when it ends is proved
C197|proved|
C198|proved|text as characters; downloads given
C199|partial|violated three ways: restart forgets, crash empties, crash truncates an address; _partial: an intact file keeps its names over a start
C20|proved|
C200|proved|the output of the httparse and url crates is given
C201|partial|noninterference for the headers the proxy knows; violated for unknown headers, foreign Referer, absent User-Agent
C202|partial|exact characterisation proved; the wish that every .i2p host is served is violated for hosts with a port
C203|partial|only a beginning of the body is sent; three violations
C204|proved|both directions
C205|partial|violated twice: signature never decides; genuine signatures fail the check; only the kind is enforced
C206|partial|violated by unreadable archive entries and, with debug assertions, short versions; safe otherwise
C207|partial|distinct, at most five, first usable; violated: fewer than five servers never end, none panics
C208|proved|Model Boot: data directory as files and directories, changed one system call or byte at a time; a start is a list of changes and may be stopped after any number. Contents of the configuration are a parameter.
C209|partial|Violated by a short file (C209_short_violated); C209_kept_partial.
C21|proved|
C210|partial|Violated (C210_stopped_violated); C210_made_partial, C210_profiles_partial: a start that is not stopped makes all of them.
C211|partial|Violated by text that is not UTF-8 (C211_unreadable_violated); C211_kept_partial.
C212|partial|Violated (C212_torn_violated); C212_before_partial.
C213|partial|Violated on the first start (C213_first_violated); C213_later_partial.
C214|partial|C214_asked_partial, C214_kept; violated for the HTTP proxy (C214_http_violated).
C215|proved|Hash sets as duplicate-free lists.
C216|proved|Model Config: merge and the decision in setup_router.
C217|partial|Violated for some data directories (C217_panic_violated, C217_other_violated); C217_name_partial.
C218|proved|Model Storage: files grow one byte at a time; text form of profiles and decompression are parameters; paths of the data directory as in C217_name_partial.
C219|partial|Violated (C219_info_violated, C219_profile_violated); C219_torn_partial.
C22|proved|every block kind the builder supports; padding parsed
C220|partial|Violated by NAT-PMP (C220_udp_violated); C220_upnp_partial, C220_removed_partial.
C221|partial|Violated (C221_gateway_violated, C221_mapping_violated); C221_timeout_partial.
C222|partial|C222_natpmp_partial, C222_upnp_partial without early errors; C222_error_violated.
C223|partial|Violated by UPnP (C223_upnp_violated), assuming that a tokio timer that has fired stays ready; C223_natpmp_partial.
C224|partial|violated by a kill while the key is stored, and if it cannot be stored; proved for a key that was stored
C225|partial|violated for connections made while another is served; proved that connections get their own tunnel's destination
C226|partial|violated: the minimum version of the client is ignored; proved that the version is told and at most the maximum
C227|partial|violated for clients that go on asking; proved that there are ten seconds
C228|proved|
C229|partial|violated: only the first transport is used; SSU2 dial panics without an SSU2 address; otherwise proved
C23|proved|
C230|partial|violated for SSU2 dials and for IPv6; proved for NTCP2 over IPv4
C231|partial|violated for ports chosen by the operating system; proved for configured ports and for unpublished transports
C232|partial|violated by the first accept or send error; proved that nothing else ends the transport
C233|proved|model of the NTCP2 transport; the handshakes' own behaviour is in C85-C89 and not composed here
C234|partial|two lost wake-ups proved; all other cases hold
C235|partial|messages of up to 64 pieces (C12 shows that longer ones are never delivered); any build; crypto is lawful AES and SHA-256 with 32 bytes
C236|partial|messages of up to 64 pieces
C237|partial|violated in debug builds
C238|proved|
C239|partial|violated at the end of a tunnel
C24|proved|
C240|partial|violated: the first message uses the tunnel up, whatever it is
C241|proved|SHA-1 is a parameter; the group order is proved prime by a Pratt certificate; that the modulus is prime is not needed
C242|partial|violated for DSA: bytes after the signature are ignored
C243|proved|the AEAD is a parameter; the nonce is per cipher object
C244|proved|timers, the channel and the network are the schedule; fairness is the structure Fair; until the close of the stream (C07)
C245|partial|a request that takes over ten seconds, a head that does not fit 8192 bytes and a connection that breaks before the request is written are not answered (C245_silent_violated, C245_broken_violated)
C246|partial|the host is put into the page as it is: markup in it becomes markup of the page (C246_markup_violated); proved for hosts without <
C247|partial|proved for tokio; async-std reports the local address (C247_async_violated), so a router behind a private address takes no connection (C247_refused_violated) and one with a public address takes private peers (C247_private_violated)
C248|partial|proved for tokio; async-std reports datagrams that it drops when the channel is full (C248_full_violated), ends at the first error (C248_dead_violated), and panics on long datagrams with debug assertions (C248_long_violated)
C249|partial|a task that panicked makes the tokio set say that it ended (C249_ended_violated); the rest is proved
C25|proved|round trip; the announced size is not enforced (shown separately)
C250|partial|Proved for messages of up to 64 pieces (C12 shows what happens beyond) that are parsed whole and whose expiry fits the headers. The tunnels may have any number of hops; participants are on the way of each piece as in C235 and C236.
C251|partial|Proved under the conditions of C119 (first messages), C115 (sessions, until a ratchet is due, in any order) and C271 (conversations over any number of ratchets, in order) and for what fits into 64 pieces. The violations of C115 to C119 and C271 apply.
C252|partial|Proved under the conditions of C251 and C177 (ports 0, room in the channel to the client), for one datagram and for any number of datagrams over any number of ratchets. The violations of C177 apply.
C253|partial|order proved for all histories; a full channel loses packets
C254|partial|violated: any peer can end the router with a termination packet; the manager is never told
C255|partial|violated: entries are never removed
C256|proved|Inbound and outbound sessions from the socket's first datagram on; a panicking task only in checked builds
C257|partial|violated: an active session has no timeout; the theorem is the refutation
C258|proved|Messages that fit an NTCP2 frame; TCP loses nothing
C259|proved|Fair schedules; messages that fit an NTCP2 frame; TCP loses nothing
C26|proved|
C260|proved|Two routers, NTCP2
C261|partial|violated when both routers dial: each drops the other's connection, whatever the order
C262|partial|violated after a failed inbound handshake and after the first connection from the listener; the theorem covers the other polls
C263|proved|Task panics are excluded (C249)
C264|partial|proved for requests of the user (lookups, searches for floodfills, publishing) and for the table; refuted for routers that are named in replies to a search, which are asked without being floodfills
C265|proved|for runs in which no call aborted the program: a panic inside a session leaves the tag removed; a tag that two sessions generated is excluded
C266|partial|proved for fair schedules when the port mapper answers; violated: while it does not answer, the loop waits inside the branch that took the request, polls nothing and hears nothing
C267|partial|proved but for a full channel, in which destinations are lost (C195); violated for the success rate: 29 of 100 is shown as 28 %
C268|partial|proved for options made of groups; violated: targets after the last level are ignored, and an unknown level makes the program panic
C269|partial|proved for the routers, and for the services when the SAM server listens; violated: without it, or without the proxy for the address book, what is configured silently does not run
C27|proved|
C270|partial|delivery for messages of up to 64 pieces; violated: accepted messages are dropped without an outbound tunnel, bound ones when their tunnel is gone; with debug assertions an expired tunnel ends the pool
C271|partial|Proved for messages that arrive in order, with no tag collision, up to 65535 tag sets each way, if nobody speaks more often in a row than tags are generated ahead; refuted without that bound; missing: losses and overtaking across a ratchet, and the passage of time (old tags expire after three minutes, C127)
C272|partial|proved for every conforming peer that pads its messages; violated for peers that send no padding, because the code mixes empty padding into the handshake hash
C273|proved|
C274|partial|violated for lookups that ask for an encrypted reply
C275|partial|violated for router infos with an address of another transport, for lease sets without an X25519 key and for lease sets with a transient key of a destination with a DSA key
C276|partial|proved in full for the dialling side and for payloads of known blocks on the other; violated for blocks of unknown types and for compressed router infos; a SessionConfirmed in several packets is not modelled
C277|proved|short build messages; the routers' answers and the ways they come back are arbitrary
C278|partial|violated when the reply token drawn is zero
C279|partial|proved until the first expiration in the lease set and while nobody stores another under the key (C141 shows both limits are real)
C28|partial|violated: the header expiration is an offset in built lease sets and an absolute time in parsed ones; the rest round-trips
C280|partial|proved before the first ratchet, for the first messages that are watched for (4,096 as shipped) and payloads without acknowledgements; violated for requests without a database store
C281|proved|messages of at most 64 pieces (C12 says what happens beyond); block cipher and hash are parameters with their laws
C282|partial|violated when the peer closes: unacknowledged and unsent data of the client is thrown away; otherwise every packet is kept and sent again until it is acknowledged
C283|partial|violated: after either side has closed its direction the other direction is cut off as well; until then delivery is in order and without gaps
C284|partial|violated: retransmission has no limit, nothing but an event from outside ends the task
C285|partial|violated: the line carries the hash in place of the destination and cannot be used to connect; the order of line, early data and later data is proved
C286|partial|SYNs without the hash of the addressee (older peers) are ignored: C286_older_peers_violated; with it every peer is accepted, every answer is, and the own packets are those of the specification
C287|partial|unsigned RESET and CLOSE end a stream: C287_reset_violated, C287_close_violated; the number of the stream is the only protection: C287_number_partial
C288|partial|the size and the delay the peer asks for are ignored: C288_ignored_violated, C288_too_large_violated; the bound 1812 and the same data under a number hold in every history
C289|partial|Working tunnels pass their test; but anyone who knows its number can end it well, and failing tunnels are used as before.
C29|proved|
C290|partial|Datagrams from destinations for DSA, P-384, P-521 or RedDSA and those of newer formats are dropped; the rest is read and written as specified.
C291|partial|C291_opens_partial, C291_packets_partial and C291_ratchets_partial: the opening of a stream and the packets after it, through any tunnels, also over ratchets; messages of up to 64 pieces (C12), no two session tags equal, the one that is called does not itself open a session at the same time (C119), nothing of the opening is lost (C67: a lost SYN-ACK is not repeated), over ratchets under the conditions of C271.
C292|partial|the beginning is proved for both directions; violated: a CLOSE has a number but no data, the receiver never counts it and so never acknowledges it; only the CLOSE that the peer itself sends ends the stream
C293|partial|Proved: when a session is established or given up, and that it is established if the rest of the router works. Violated: while the channel of the network database is closed or stays full the request is retried for ever and never answered; a tunnel manager that ends makes the task panic.
C294|partial|Proved for streams that the client opens, for streams that a remote opens from port 0 to port 0, and for other ports as long as the stream waits for a listener. Violated for other ports after that: a stream that is accepted sends all its packets from and to port 0, and one that waited for a listener changes its ports.
C295|partial|violated: the expiration is never looked at, neither when the message comes nor when its lease set is found
C296|partial|violated: zero or more than 8 hops give no tunnel; options of SAM clients are ignored. That a pool keeps to the number of tunnels is C129
C297|partial|Holds in all histories without failed dials and late tests (C297_kept_partial). C297_tests_violated and C297_dials_violated: any number of late tests, or of builds whose first router cannot be dialled, leaves as many listeners for which nobody waits. C297_answered: the converse holds always, the listener of a task that waits is there and its answer is passed to it. The same for inbound tunnels, whose listeners are in the routing table: C297_inbound_partial and C297_inbound_violated.
C298|partial|C298_answers: one line per command, in order and as specified for unknown names, for all histories. C298_lookup_violated: names that a session finds at once are not found without a session.
C299|partial|C299_sent, C299_received, C299_tunnels, C299_gateway: sizes 1 to 65526 and all that is forwarded. C299_size_violated and C299_cut_violated: other sizes.
C30|proved|
C300|partial|C300_reason: every end has its reason in the history. C300_goes_on_partial: without one, a stream goes on. C300_syn_violated, C300_last_number_violated: the two panics.
C301|partial|C301_alone_partial: each stream is as if alone while the session runs. C301_ends_partial, C301_why_partial: only a panic ends it, and what must have come before. C301_panic_violated, C301_two_packets_violated: one stream can.
C31|proved|
C32|partial|violated by authentic frames that do not parse (the reader loses frame alignment, in a way that depends on segmentation); otherwise proved for every segmentation
C33|proved|
C34|proved|
C35|partial|violated: a gap or run of more than 255 packets makes the block acknowledge packets that never arrived; exact otherwise, and the top range is always sound
C36|proved|
C37|partial|violated: a duplicate rejected in one generation is not remembered in the next; fresh identifiers are never rejected and accepted ones are remembered for two generations
C38|partial|violated in builds with overflow checks and debug assertions, and the size field of an ACK block is ignored; the parser accepts exactly the block sequences, inverts the serializer and never panics in release builds
C39|proved|
C40|proved|
C41|proved|
C42|partial|Order, completeness and filtering are proved for every table; distinctness holds unless the table holds the router at distance 1 from the local one, which every lookup near it returns twice (bucket 0 is visited twice): proved as C42_router_returned_twice_violated.
C43|proved|that a refusal carries code 30 is part of C101
C44|proved|
C45|proved|
C46|proved|
C47|partial|in every history the counts are those of the active tunnels plus the tunnels lost when a pool shut down or an id was used twice; exact if neither happens; after a pool with tunnels shuts down the counts stay too high for ever (proved)
C48|partial|each hop has its own subnet in which it has an address; distinct if no router has addresses in two subnets; a router with two subnets can be chosen twice, and insecure mode can choose the same router twice (proved)
C49|partial|violated for unreachability: a recent dial failure counts as reachable and an old one as unreachable; declining and what is recorded are proved
C50|partial|violated: routers without statistics are left out once others have some, and a re-added router is in two buckets; proved for routers with statistics, for fresh storages, over histories and after maintenance
C51|partial|choice of tunnels proved; the outbound tunnel of a path is live if tunnels are announced in order, ids of leases and outbound tunnels differ and no event was dropped from a full queue; the lease has 30 s left unless a request for a new path failed: then (violated) the old path stays and its lease may have expired for any time; violated too: a lease with the id of the outbound tunnel makes the next request panic
C52|partial|violated when a subsystem falls behind: a batch for a full queue is lost; proved as long as there is room
C53|proved|the event manager, which can also end the router, is not modelled
C54|proved|for tags that are generated once; the number of times a tag is found never exceeds the number of times it was generated
C55|proved|
C56|partial|lock-step is proved for every schedule in which a waiting sender is not given an answer to an older request; without that condition it is refuted (old key accepted, debug panic or unusable set)
C57|proved|
C58|proved|assumes a signature check that only accepts 64-byte signatures
C59|partial|violated: an expired transient key is accepted, and a DSA destination can never certify one
C60|proved|
C61|partial|violated: an unsupported block at the end of a message makes the whole message unparseable
C62|partial|violated: records whose options mapping takes more than 64 bytes are rejected; proved up to 64
C63|partial|violated: any destination that knows the id completes the connection; proved that every outbound stream was requested and answered by a signed SYN
C64|partial|violated by stale ids in remove_session and by late completions; the other operations never unregister a stream
C65|proved|
C66|partial|violated without running streams (60 s timer) and after the forced shutdown (streams accepted); proved when every running stream is registered
C67|partial|violated: the repeated SYN is ignored
C68|partial|proved for messages of at most 65,507 bytes of payload; larger ones are announced with a truncated length
C69|proved|
C70|proved|
C71|partial|violated: the state has one entry for every packet number up to the highest received, so one packet can make it hold 2^32 - 1 entries
C72|partial|violated: a payload of 1,190 to 1,200 bytes is sent as a single unfinished fragment and never delivered; proved for every other size
C73|proved|
C74|partial|violated for the token of Retry (byte order reversed); everything else is read back
C75|proved|
C76|partial|violated for 40 to 63 byte datagrams; proved for shorter than 24 and at least 64
C77|partial|violated: building the termination packet always panics
C78|partial|violated for packets of a dialled router that happen to decode under the router's own key; the rest is proved
C79|partial|violated: the static key is not compared with the router info
C80|partial|violated: the local router id is recorded
C81|partial|violated: any unexpected packet poisons the handshake
C82|partial|violated for a responder waiting for the session request; the retransmission schedules are proved
C83|partial|violated: any token is accepted
C84|partial|violated after 2^32 packets without overflow checks; proved below that
C85|proved|
C86|proved|
C87|partial|violated: the static key of the handshake is not compared with the router info
C88|partial|accepting never panics; dialling panics with overflow checks if the own router info has 65516 bytes or more
C89|partial|violated: neither the time nor earlier requests are looked at
C90|proved|
C91|proved|
C92|proved|
C93|partial|violated: a connection we dialled that is turned down because another is open leaves the router marked as pending for good
C94|partial|violated if the query channel is full, or after C93; proved otherwise
C95|proved|
C96|proved|
C97|partial|violated: a failure reported while connected makes the manager forget the connection; C96 covers the other histories
C98|partial|violated: some message types trip a debug assertion, and the duplicate filter is switched off
C99|partial|violated for cloves addressed to this router

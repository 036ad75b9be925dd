{"id": "C01", "title": "Wire frames round-trip", "statement": "Decoding the bytes the client writes for any command (with or without a message payload) yields exactly that command, metadata and payload, and consumes exactly that frame, leaving any following bytes untouched.", "quantifier": "every well-formed protobuf command, every metadata, every payload byte string fitting a 32-bit frame, every trailing byte string", "why_tests_cant": "the space of commands, payload lengths and trailing bytes is unbounded; the repo's single round-trip test discards the decoded value", "anchors": ["src/codec.rs: Codec::encode, Codec::decode, command_frame, payload_frame"]}
{"id": "C02", "title": "Frame reassembly is independent of how the socket chunks bytes", "statement": "If a peer writes any sequence of frames, then however TCP splits the byte stream into reads, the connection yields exactly that sequence of commands, in order, once each.", "quantifier": "every list of frames and every partition of the byte stream into non-empty reads", "why_tests_cant": "the number of ways a byte stream can be cut into reads is exponential; a test fixes one", "anchors": ["src/codec.rs: Codec::decode", "src/connection.rs: ConnectionStream::next"]}
{"id": "C03", "title": "An incomplete frame is never consumed", "statement": "While only a strict prefix of a frame has arrived the decoder reports 'need more', produces nothing, and leaves the buffered bytes unchanged.", "quantifier": "every frame and every strict prefix of it", "why_tests_cant": "a cut can fall at every offset of frames of every size", "anchors": ["src/codec.rs: Codec::decode"]}
{"id": "C04", "title": "Frame layout and length fields are exact", "statement": "A written frame is: 4-byte big-endian total size (number of bytes that follow it), 4-byte command size, the command, and - only when there is a payload - magic 0x0e01, 4-byte checksum, 4-byte metadata size, metadata, payload.", "quantifier": "every command, metadata and payload within the 32-bit size limit", "why_tests_cant": "sizes interact arithmetically for every combination of component lengths", "anchors": ["src/codec.rs: Codec::encode"]}
{"id": "C05", "title": "The payload checksum is a CRC-32C over metadata size, metadata and payload and reveals corruption", "statement": "The checksum in each payload frame is the CRC-32C (Castagnoli) of everything after the checksum field, and altering up to four consecutive bytes of that region always changes the checksum a verifying receiver computes.", "quantifier": "every metadata, payload, corruption position and corruption value", "why_tests_cant": "2^32 checksum states and unbounded payloads", "anchors": ["src/codec.rs: Codec::encode (crc32c)"]}
{"id": "C06", "title": "Corrupted payloads are not delivered", "statement": "A received message frame whose checksum does not match its contents is rejected instead of being handed to the application.", "quantifier": "every received payload frame and every corruption", "why_tests_cant": "needs all corruption patterns; the code never compares the checksum", "anchors": ["src/codec.rs: Codec::decode, PayloadFrame.checksum"]}
{"id": "C07", "title": "Garbage from the network cannot crash a connection", "statement": "Whatever bytes arrive, decoding returns a frame, 'need more' or an error; it does not panic.", "quantifier": "every received byte string", "why_tests_cant": "all byte strings of all lengths", "anchors": ["src/codec.rs: Codec::decode, command_frame"]}
{"id": "C08", "title": "Oversized messages are never mis-framed", "statement": "Writing a command either produces a frame whose size fields are correct or fails cleanly, even when the payload does not fit in a 32-bit length.", "quantifier": "every payload length, including those of 4 GiB and more", "why_tests_cant": "a test would have to allocate multi-gigabyte payloads for every boundary", "anchors": ["src/codec.rs: Codec::encode (as u32 casts and sum)"]}
{"id": "C09", "title": "Protobuf bodies survive serialisation", "statement": "Any well-formed broker command, message metadata, message id or per-message batch metadata, once serialised, parses back to the identical value, and fields the client does not know are skipped without disturbing the known ones.", "quantifier": "every message type of pulsar.proto, every well-formed value, every unknown field", "why_tests_cant": "values nest and repeat without bound", "anchors": ["src/protos/pulsar.proto", "src/codec.rs: write_to_bytes / parse_from_bytes call sites"]}
{"id": "C10", "title": "Sending a command never panics in the encoder", "statement": "Every command that the public producer and consumer API can generate has all required protobuf fields set, so it is written to the wire instead of panicking.", "quantifier": "every API call with every argument", "why_tests_cant": "every argument value of every call", "anchors": ["src/message.rs: From<..> for MessageCommand", "src/codec.rs: write_to_bytes().unwrap()"]}
{"id": "C11", "title": "Batches of two or more messages round-trip", "statement": "The payloads of a batch of two or more messages handed to send_batch reach a consumer of the frame as the same payloads, same number, same order.", "quantifier": "every list of at least two payloads each shorter than 2^31 bytes", "why_tests_cant": "unbounded batch sizes and payload contents", "anchors": ["src/message.rs: Send::payload, parse_batched_message, batched_payload, TryFrom<MessageCommand> for Message"]}
{"id": "C12", "title": "Batches of any size round-trip", "statement": "send_batch of any list of payloads makes a consumer receive exactly those payloads.", "quantifier": "every list of payloads, including empty and one-element lists", "why_tests_cant": "degenerate sizes are the ones tests leave out; must hold for all", "anchors": ["src/message.rs: Send::payload, TryFrom<MessageCommand> for Message (num_messages_in_batch > 1)"]}
{"id": "C13", "title": "Batch parsing is total and exact", "statement": "Parsing a batch payload announced to hold n messages either returns exactly n messages made of consecutive slices of the input or reports a decode failure; it never panics and never accepts a truncated batch.", "quantifier": "every count and every byte string", "why_tests_cant": "all byte strings and counts", "anchors": ["src/message.rs: parse_batched_message, batched_payload"]}
{"id": "C14", "title": "Single messages round-trip byte for byte", "statement": "A payload passed to send reaches a consumer of the frame as exactly the same bytes under the consumer id and message id the broker assigned.", "quantifier": "every payload, producer name, producer id and sequence id", "why_tests_cant": "unbounded payloads", "anchors": ["src/message.rs: From<Send> for MessageCommand, TryFrom<MessageCommand> for Message"]}
{"id": "C15", "title": "API calls put the requested command on the wire", "statement": "connect, lookup, subscribe, producer registration, flow, ack, send and send_batch each produce exactly one broker command of the matching type, carrying the caller's topic, subscription, payload, ids and permits unchanged and no other sub-command.", "quantifier": "every API call and argument value, as seen by an independent reader of the bytes", "why_tests_cant": "all argument values; must hold at byte level", "anchors": ["src/message.rs: From<..> for MessageCommand", "src/client.rs: PulsarClient for Client"]}
{"id": "C16", "title": "An acknowledgement names exactly the message received", "statement": "ack sends an individual acknowledgement carrying the consumer's own id and exactly one message id, equal to the id the broker sent for that message (plus its batch index for batched messages).", "quantifier": "every message id the broker can send and every consumer", "why_tests_cant": "message ids have unbounded shape (ack sets, nested chunk ids)", "anchors": ["src/message.rs: From<Vec<Ack>> for MessageCommand", "src/client.rs: Client::ack", "src/consumer.rs: Consumer::next"]}
{"id": "C17", "title": "Broker commands are classified correctly", "statement": "Each supported, complete broker command becomes the matching event with the broker's field values (a message whose announced batch does not parse is reported as undecodable); every other command type is reported as unsupported; only a supported command with missing parts does anything else (C74).", "quantifier": "every broker command value that parses", "why_tests_cant": "every command type with every subset of optional fields present", "anchors": ["src/message.rs: TryFrom<MessageCommand> for Inbound and its callees", "src/connection.rs: start_connection"]}
{"id": "C18", "title": "Every request completes at most once and is never duplicated or forgotten", "statement": "At every moment each request made through a client is in exactly one place: queued, waiting for its response, or completed (with a response or a failure); it never completes twice.", "quantifier": "every interleaving of clients, engine, connections, broker traffic, disconnects and drops", "why_tests_cant": "the set of schedules is unbounded", "anchors": ["src/command_resolver.rs", "src/client_manager.rs", "src/pulsar.rs", "src/connection.rs", "src/client.rs: send_command_and_resolve"]}
{"id": "C19", "title": "A completed request got a response of its own kind", "statement": "If a request completes successfully the response is of the kind the request asks for - connected for connect, lookup response for lookup, success for subscribe, producer success for producer, ack receipt for ack, and a send receipt with the same sequence id for send - so no call fails with Unresolvable.", "quantifier": "every reachable state of the client/engine/connection system under every schedule", "why_tests_cant": "all interleavings and all broker behaviours", "anchors": ["src/message.rs: ResolverKey for Outbound / Inbound", "src/client.rs: send_command_and_resolve"]}
{"id": "C20", "title": "Successful completions come from the broker", "statement": "No request completes successfully unless a matching response was read from some broker connection.", "quantifier": "every reachable state under every schedule and broker behaviour", "why_tests_cant": "all interleavings", "anchors": ["src/command_resolver.rs: try_resolve", "src/client_manager.rs: send", "src/connection.rs: start_connection"]}
{"id": "C21", "title": "Concurrent requests each receive their own response", "statement": "When several requests of one instance are outstanding, each is completed by the broker's response to it and not by the response to another.", "quantifier": "every set of concurrently outstanding requests of any clients of one Pulsar instance", "why_tests_cant": "all interleavings of requests and responses", "anchors": ["src/message.rs: ResolverKey (keys omit client and request id)", "src/command_resolver.rs"]}
{"id": "C22", "title": "Concurrent acknowledgements all succeed", "statement": "If several acks are outstanding at once and the broker confirms each, each ack call returns Ok.", "quantifier": "every number of concurrent ack calls and every schedule", "why_tests_cant": "all interleavings", "anchors": ["src/message.rs: try_key \"ACK\"", "src/consumer.rs: ack, ack_all"]}
{"id": "C23", "title": "Producers sharing one Pulsar instance do not interfere", "statement": "A producer's send returns Ok only if the broker issued a receipt to that producer.", "quantifier": "every pair of producers and every schedule", "why_tests_cant": "all interleavings", "anchors": ["src/message.rs: try_key SEND:{sequence_id}", "src/client_manager.rs"]}
{"id": "C24", "title": "Received messages are never mistaken for responses", "statement": "No message read from a broker is ever consumed as the response to a pending request; it is always passed on toward the consumer it is addressed to.", "quantifier": "every reachable state and every message", "why_tests_cant": "all reachable resolver contents", "anchors": ["src/message.rs: try_key", "src/connection.rs: start_connection", "src/client_manager.rs: send"]}
{"id": "C25", "title": "A consumer gets every message the broker sends it, once and in order", "statement": "While the engine runs and the consumer stays on its broker connection, the messages the consumer has received or has queued are exactly the messages addressed to it in the order the broker sent them, with none lost, duplicated or reordered.", "quantifier": "every schedule of engine, connection, clients and broker traffic", "why_tests_cant": "all interleavings and message sequences", "anchors": ["src/connection.rs: start_connection", "src/connection_manager.rs: next", "src/pulsar.rs: handle_connection_inbound", "src/client_manager.rs: send", "src/client.rs: next_message"]}
{"id": "C26", "title": "Messages and receipts are delivered only to the client they are addressed to", "statement": "A message, ack receipt or send receipt that carries a consumer or producer id is queued only to the client with that id, and only if it arrived over that client's broker connection.", "quantifier": "every reachable state and every schedule", "why_tests_cant": "all client populations", "anchors": ["src/client_manager.rs: send", "src/message.rs: try_consumer_or_producer_id"]}
{"id": "C27", "title": "A client's commands reach its broker in the order issued", "statement": "The commands one client issues are written to its broker connection in the order they were issued, without loss or duplication, for as long as the engine runs.", "quantifier": "every schedule and every number of clients", "why_tests_cant": "all interleavings", "anchors": ["src/client_manager.rs: next", "src/pulsar.rs: handle_client_outbound, send_to_connection", "src/connection.rs: start_connection"]}
{"id": "C28", "title": "Every broker ping is answered on the same connection", "statement": "Each ping handled by the engine queues exactly one pong on the connection it came from and nothing to any client; pongs are sent for no other reason.", "quantifier": "every schedule and every number of pings and connections", "why_tests_cant": "all interleavings", "anchors": ["src/pulsar.rs: handle_connection_inbound"]}
{"id": "C29", "title": "Client ids are unique", "statement": "No two producers or consumers created from one Pulsar instance ever share an id, even when created concurrently.", "quantifier": "every number of clients and every interleaving of creations", "why_tests_cant": "all interleavings", "anchors": ["src/pulsar.rs: PulsarManager::new_client_id, register, handle_registration"]}
{"id": "C30", "title": "Every connect carries the configured credentials", "statement": "When an authentication plugin is configured, every connect command handed to a broker connection carries the method name and data the plugin returned for it; if the plugin fails, no connect is sent. Without a plugin no credentials are sent.", "quantifier": "every schedule, every plugin result", "why_tests_cant": "all interleavings and plugin outcomes", "anchors": ["src/pulsar.rs: handle_client_outbound", "src/message.rs: From<Connect> for MessageCommand"]}
{"id": "C31", "title": "After the engine stops, calls fail instead of blocking", "statement": "Once the engine has stopped, every request that was awaiting a response has failed with ChannelTerminated, every later request, flow or registration call of a client the engine had registered fails, and reading messages fails once already queued messages are drained (clients it had not registered: C43).", "quantifier": "every reachable state in which the engine has stopped, every pending request", "why_tests_cant": "all crash points", "anchors": ["src/pulsar.rs: start_pulsar", "src/engine.rs: send, recv", "src/client.rs"]}
{"id": "C32", "title": "No request hangs after the engine stops", "statement": "Once the engine has stopped, every request ever made has completed with a response or an error.", "quantifier": "every crash point", "why_tests_cant": "all crash points relative to queued requests; depends on the channel's drop behaviour", "anchors": ["src/engine.rs", "src/client.rs: send_command_and_resolve", "src/pulsar.rs: start_pulsar"]}
{"id": "C33", "title": "Dropping one client does not disturb the others", "statement": "Dropping a consumer or producer leaves every other client of the same Pulsar instance working.", "quantifier": "every population of clients and every time of drop", "why_tests_cant": "all drop points", "anchors": ["src/client_manager.rs: next", "src/pulsar.rs: handle_client_outbound, start_pulsar"]}
{"id": "C34", "title": "Losing a broker connection is detected", "statement": "A broker connection that has ended stays so and the engine keeps it: while the engine waits for events with a client, it can at once take the next event received from that connection or stop; it never silently continues without it. (That everything received is processed first: C80.)", "quantifier": "every state and every time of disconnection", "why_tests_cant": "all crash points", "anchors": ["src/connection.rs: start_connection", "src/connection_manager.rs: next", "src/pulsar.rs: handle_connection_inbound"]}
{"id": "C35", "title": "Broker error replies reach the caller", "statement": "If the broker answers a request with an error (ERROR, SEND_ERROR), the call returns an error.", "quantifier": "every request and every error reply", "why_tests_cant": "all interleavings; absence of a wake-up cannot be observed by a finite test", "anchors": ["src/message.rs: TryFrom<MessageCommand> for Inbound (ERROR, SEND_ERROR)", "src/connection.rs: start_connection"]}
{"id": "C36", "title": "A rejected connect does not block other clients", "statement": "If the broker refuses one client's connect, the other clients keep working.", "quantifier": "every schedule after the refusal", "why_tests_cant": "absence of progress under all schedules", "anchors": ["src/pulsar.rs: send_to_connection (rx.await)"]}
{"id": "C37", "title": "Proxied topics are reached through the proxy", "statement": "When a lookup says to connect through the service URL, the client opens (or reuses) a connection for exactly that broker, its connect names the target broker, and all its later commands go over that connection.", "quantifier": "every lookup response, every schedule", "why_tests_cant": "all responses and interleavings", "anchors": ["src/client.rs: lookup_topic, connect_to_proxy", "src/pulsar.rs: handle_client_outbound, new_connection", "src/client_manager.rs: move_client_to_broker"]}
{"id": "C38", "title": "A lookup naming another broker is honoured", "statement": "After a successful lookup the client's subscribe/producer command goes to the broker named in the response.", "quantifier": "every lookup response", "why_tests_cant": "all responses", "anchors": ["src/client.rs: lookup_topic"]}
{"id": "C39", "title": "Lookup failures surface", "statement": "If any lookup made while resolving a topic is answered with 'failed', resolving the topic returns an error.", "quantifier": "every sequence of lookup responses", "why_tests_cant": "all response sequences", "anchors": ["src/client.rs: lookup_topic"]}
{"id": "C40", "title": "Creating a client follows the handshake order and stops at the first failure", "statement": "Creating a consumer issues connect, lookup, (proxy connect, lookup), subscribe, flow - a producer connect, lookup, (proxy connect, lookup), producer - each only after the previous succeeded; any failure is returned and nothing further is issued.", "quantifier": "every combination of broker responses and failures", "why_tests_cant": "all response sequences", "anchors": ["src/consumer.rs: Consumer::connect", "src/producer.rs: Producer::connect", "src/client.rs: lookup_topic"]}
{"id": "C41", "title": "Every client is eventually served", "statement": "A client with a queued command is eventually served by the engine even if other clients keep issuing commands.", "quantifier": "every schedule", "why_tests_cant": "liveness over infinite schedules", "anchors": ["src/client_manager.rs: next (select_all)"]}
{"id": "C42", "title": "The engine itself never panics", "statement": "No sequence of client calls, broker traffic and connection events makes the engine task panic.", "quantifier": "every reachable state and every next event", "why_tests_cant": "all histories", "anchors": ["src/pulsar.rs: handle_client_outbound (unwrap)", "src/message.rs: From<Vec<Ack>>"]}
{"id": "C43", "title": "Registration completes before the client is used", "statement": "When creating a client returns, the engine knows that client and will read its commands; if the engine is gone, creation fails with an error.", "quantifier": "every interleaving of creations", "why_tests_cant": "all interleavings of concurrent registrations", "anchors": ["src/pulsar.rs: PulsarManager::register, handle_registration"]}
{"id": "C44", "title": "Producer sequence ids are consecutive", "statement": "The messages and batches a producer sends carry sequence ids 0, 1, 2, ... in the order issued, with no gap or repetition; request ids of a client are likewise unique.", "quantifier": "every sequence of sends by every client, under every interleaving", "why_tests_cant": "all histories", "anchors": ["src/client.rs: send_message, send_batch_message, request_id/sequence_id fetch_add"]}
{"id": "C45", "title": "send and send_batch report the broker's receipt", "statement": "send and send_batch return Ok only after a send receipt with the message's sequence id arrived; otherwise they return an error, and then the payload could not be serialised, the engine was gone or stopped, or another request took the place of this one (C23); if the engine stops while the message waits for its receipt the call ends in ChannelTerminated. (Messages the engine never took: C32.)", "quantifier": "every schedule and broker behaviour", "why_tests_cant": "all interleavings", "anchors": ["src/producer.rs: send, send_batch", "src/client.rs: send_command_and_resolve"]}
{"id": "C46", "title": "send_all reports failures", "statement": "send_all returns Ok only if every message was confirmed by the broker.", "quantifier": "every list of messages and every combination of per-message outcomes", "why_tests_cant": "all outcome combinations", "anchors": ["src/producer.rs: send_all"]}
{"id": "C47", "title": "ack_all acknowledges everything and reports failures", "statement": "ack_all sends one acknowledgement per given message in order, and returns Ok only if every one was confirmed.", "quantifier": "every list of acks and every combination of outcomes", "why_tests_cant": "all outcome combinations", "anchors": ["src/consumer.rs: ack_all"]}
{"id": "C48", "title": "next_message hands out each message exactly once in order", "statement": "Any number of next_message calls returns the messages of the received stream (batches expanded in index order) in order, each exactly once, skipping none.", "quantifier": "every stream of single and batch messages and every number of calls", "why_tests_cant": "all streams", "anchors": ["src/consumer.rs: Consumer::next_message, Consumer::next"]}
{"id": "C49", "title": "Concurrent next_message calls are serialisable", "statement": "However many tasks call next_message on one consumer at the same time, each message is handed to exactly one call and the hand-out order is the arrival order.", "quantifier": "every number of tasks and every interleaving of their steps", "why_tests_cant": "all interleavings", "anchors": ["src/consumer.rs: next_message (buffer mutex)"]}
{"id": "C50", "title": "next_message is cancellation safe", "statement": "Dropping a pending next_message call at any await point loses no message.", "quantifier": "every cancellation point in every interleaving", "why_tests_cant": "all cancellation points", "anchors": ["src/consumer.rs: next_message"]}
{"id": "C51", "title": "next_batch respects its bound", "statement": "next_batch(n) returns at most n messages, at least one when n > 0, and returns immediately with none when n = 0.", "quantifier": "every n, buffer content and received message", "why_tests_cant": "all sizes", "anchors": ["src/consumer.rs: next_batch"]}
{"id": "C52", "title": "next_batch neither loses nor reorders messages", "statement": "The messages returned by successive next_batch and next_message calls are the received messages in order, each exactly once.", "quantifier": "every stream and every sequence of calls", "why_tests_cant": "all sequences", "anchors": ["src/consumer.rs: next_batch (pop, leftover next_messages)"]}
{"id": "C53", "title": "A failed or cancelled next_batch loses nothing", "statement": "If next_batch fails or is dropped while waiting, messages it had already taken stay available to the next call.", "quantifier": "every failure and cancellation point", "why_tests_cant": "all crash points", "anchors": ["src/consumer.rs: next_batch"]}
{"id": "C54", "title": "Flow control never starves a consumer of single messages", "statement": "For a stream of unbatched messages that can be decoded, whenever a receiving call waits and nothing is in the channel, the broker holds at least one permit it has not used.", "quantifier": "every number of messages; every permit setting P > 0 whose grants fit in 32 bits; every mix of next_message, next_batch and consume calls, up to P + 1 of them at the same time (251 with the setting the code uses), in every interleaving, any of them dropped at any point", "why_tests_cant": "unbounded histories", "anchors": ["src/consumer.rs: check_and_flow, next_message, connect"]}
{"id": "C55", "title": "Flow control never starves a consumer of batched messages", "statement": "Also when messages arrive in batches: whenever a receiving call waits and nothing is in the channel, the broker holds at least one permit it has not used.", "quantifier": "every stream of batches", "why_tests_cant": "needs long histories: starvation appears only after hundreds of messages", "anchors": ["src/consumer.rs: check_and_flow, next_message (buffer path)"]}
{"id": "C56", "title": "Prefetch is bounded", "statement": "The permits the broker holds never exceed twice the configured prefetch.", "quantifier": "every history", "why_tests_cant": "growth over unbounded histories", "anchors": ["src/consumer.rs: check_and_flow (message_permits * 2 + overflow)"]}
{"id": "C57", "title": "Permit accounting is exact under concurrency", "statement": "When several tasks consume from one consumer at the same time no consumed permit is lost and none is granted twice.", "quantifier": "every interleaving", "why_tests_cant": "all interleavings of load/flow/store/fetch_add", "anchors": ["src/consumer.rs: check_and_flow, next_message"]}
{"id": "C58", "title": "Undecodable messages surface as errors", "statement": "A payload the application type rejects makes the call return DeserializationFailed, without crashing and without losing other messages or permits.", "quantifier": "every stream with undecodable payloads at any position, single or batched", "why_tests_cant": "all positions", "anchors": ["src/consumer.rs: Consumer::next"]}
{"id": "C59", "title": "Plugins see every message once, in order", "statement": "consume offers every received message to every plugin exactly once, in registration order, and stops with the first plugin error or receive error.", "quantifier": "every stream, every plugin list, every plugin behaviour", "why_tests_cant": "all streams and plugin behaviours", "anchors": ["src/consumer.rs: ConsumerEngine::consume"]}
{"id": "C60", "title": "Batch elements get distinct, index-correct ack ids", "statement": "The k-th message of a batch carries the batch's message id with batch index k and every other part unchanged; different messages of a batch have different ack ids.", "quantifier": "every batch", "why_tests_cant": "all batch sizes", "anchors": ["src/consumer.rs: Consumer::next"]}
{"id": "C61", "title": "OAuth2 tokens are cached until they expire and never served stale", "statement": "auth_data returns the cached token exactly when it has not passed its expiry time, otherwise requests a new one and caches it; a failed request is reported, caches nothing and is retried by the next call (token lifetimes are within the range of the clock type; outside it the call panics).", "quantifier": "every sequence of calls, clock readings and token-endpoint results", "why_tests_cant": "all histories and clock values", "anchors": ["src/auth.rs: ClientCredentialsOAuth2::get_auth_data, CachedToken::is_expired"]}
{"id": "C62", "title": "The broker name sent to a proxy carries no pulsar:// scheme", "statement": "The proxy target put in a connect command is the lookup's broker URL with the pulsar:// prefix removed; it never starts with pulsar://, and a URL without the prefix is unchanged.", "quantifier": "every URL string", "why_tests_cant": "all strings", "anchors": ["src/broker_address.rs: get_proxy", "src/message.rs: From<Connect>"]}
{"id": "C63", "title": "TLS is used exactly for pulsar+ssl:// endpoints", "statement": "A connection is encrypted if and only if the address dialled starts with pulsar+ssl://; a failed TLS handshake is reported, never downgraded to plain text; every failure is reported as the matching error, except a host that is not a valid TLS server name (C94).", "quantifier": "every address and every outcome of URL parsing, dialling and handshake", "why_tests_cant": "all addresses and failure combinations", "anchors": ["src/connection.rs: PulsarConnection::connect", "src/broker_address.rs: is_tls"]}
{"id": "C64", "title": "Message ids obey the Eq/Hash contract", "statement": "Equal message ids hash equally.", "quantifier": "every pair of message ids", "why_tests_cant": "all pairs", "anchors": ["src/message.rs: impl Hash for MessageIdData"]}
{"id": "C65", "title": "Queued commands are flushed on shutdown", "statement": "After the engine stops, each live connection still writes every command already queued for it, in order, and then closes.", "quantifier": "every reachable stopped state", "why_tests_cant": "all crash points", "anchors": ["src/connection.rs: start_connection", "src/engine.rs: recv"]}
{"id": "C66", "title": "Truncated streams end in an error then a disconnect", "statement": "If the peer closes in the middle of a frame, the complete frames before it are delivered, then one decode error and then end of stream is reported; if it closes on a frame boundary, only end of stream is reported.", "quantifier": "every list of frames, every partial tail, every chunking", "why_tests_cant": "all cut positions", "anchors": ["src/connection.rs: ConnectionStream::next, start_connection", "src/codec.rs: Decoder (default decode_eof)"]}
{"id": "C67", "title": "The id in an acknowledgement is the broker's, field by field", "statement": "For a message received from the broker and acked by the application, parsing the bytes of the ack yields a message id equal to the one in the broker's message frame (with the batch index set for batched messages).", "quantifier": "every broker message frame", "why_tests_cant": "all message ids, byte level", "anchors": ["src/message.rs", "src/consumer.rs", "src/codec.rs"]}
{"id": "C68", "title": "Connection sharing: one connection per broker address", "statement": "At any time the engine holds at most one connection per broker address, and clients of the same address share it; a connection is opened only on start or for a connect naming a new address.", "quantifier": "every schedule", "why_tests_cant": "all interleavings", "anchors": ["src/pulsar.rs: new_connection", "src/connection_manager.rs"]}
{"id": "C69", "title": "ack reports the broker's answer", "statement": "ack returns Ok only after an acknowledgement response was read from a broker's socket and completed this request, which names exactly the given message; otherwise it returns ChannelTerminated, and then the engine was gone or stopped, or another acknowledgement took its place (C22). (Rejections: C96.)", "quantifier": "every schedule, every message id and every broker answer", "why_tests_cant": "all interleavings and all answers", "anchors": ["src/consumer.rs: ack", "src/client.rs: ack, send_command_and_resolve", "src/message.rs: AckReciept"]}
{"id": "C70", "title": "From the bytes on a socket to the application", "statement": "While a consumer is attached to a broker, what its next_message and consume calls hand to the application is, in order and each once, what the messages the broker's socket carried for it say - however the bytes are cut into reads, whatever other connections, clients and calls do, until the end of the connection or of the engine; and once everything has been read and asked for, all of it.", "quantifier": "every byte stream of valid frames, every chunking, every schedule of connection tasks, engine, other clients and concurrent or dropped calls", "why_tests_cant": "the composition of framing, engine and consumer under all interleavings and all chunkings", "anchors": ["src/connection.rs: ConnectionStream::next, start_connection", "src/pulsar.rs: handle_connection_inbound", "src/client_manager.rs: send", "src/consumer.rs: next_message, consume"]}
{"id": "C71", "title": "What reaches the broker's socket is whole commands in order", "statement": "The bytes accepted by a broker's socket are, whatever writes fail and however the socket splits them, whole encodings one after the other (the last possibly incomplete) of commands the clients issued, each client's in the order issued and none twice; every command reported written is among them, and without failures they are all of them.", "quantifier": "every schedule, every set of clients and commands, every pattern of partial and failing writes", "why_tests_cant": "all interleavings and all write outcomes", "anchors": ["src/connection.rs: ConnectionStream::send, start_connection", "src/codec.rs: Encoder", "src/pulsar.rs: send_to_connection"]}
{"id": "C72", "title": "Only malformed frames crash a connection", "statement": "Decoding never returns an error: it panics exactly if a complete frame has arrived whose contents are malformed (sizes that do not fit, contents that do not parse); for every other byte string it returns a frame or 'need more'.", "quantifier": "every received byte string", "why_tests_cant": "all byte strings of all lengths", "anchors": ["src/codec.rs: Codec::decode, command_frame"]}
{"id": "C73", "title": "Frames below 2^32 bytes are always right, and what happens above", "statement": "A frame smaller than 2^32 bytes is written with correct size fields in every build. Above that, a release build writes the layout with each size field reduced modulo 2^32, and a build with overflow checks writes the same or panics.", "quantifier": "every payload length, every build mode", "why_tests_cant": "a test would have to allocate multi-gigabyte payloads for every boundary", "anchors": ["src/codec.rs: Codec::encode (as u32 casts and sum)"]}
{"id": "C74", "title": "No broker command that parses crashes the connection", "statement": "Every broker command whose required protobuf fields are set is handled or ignored without a panic.", "quantifier": "every broker command value that parses", "why_tests_cant": "every command type with every subset of optional fields present", "anchors": ["src/message.rs: TryFrom<MessageCommand> for Inbound and its callees", "src/connection.rs: start_connection"]}
{"id": "C75", "title": "Requests with different keys each receive their own response", "statement": "If brokers answer honestly and no two requests outstanding at the same time are of the same kind (same sequence id for sends), every request that completed successfully got the response meant for it, no request fails while the engine runs, and every response the engine has handled completed its request.", "quantifier": "every set of concurrently outstanding requests of different kinds, every schedule", "why_tests_cant": "all interleavings of requests and responses", "anchors": ["src/message.rs: ResolverKey (keys omit client and request id)", "src/command_resolver.rs"]}
{"id": "C76", "title": "One acknowledgement at a time always succeeds", "statement": "If at most one ack is outstanding at a time over the instance and brokers are honest, then while the engine runs no ack fails, and each one the broker confirmed returned Ok with its own confirmation once the engine has caught up with that socket.", "quantifier": "every history with one ack outstanding at a time, every schedule of everything else", "why_tests_cant": "all interleavings", "anchors": ["src/message.rs: try_key \"ACK\"", "src/consumer.rs: ack, ack_all"]}
{"id": "C77", "title": "A producer's sends get their own receipts unless another producer uses the same sequence id", "statement": "With honest brokers, and no other producer having a send with the same sequence id outstanding at that time (in particular with a single producer), a producer may have any number of sends outstanding: each that returned Ok got the receipt issued for it, and none fails while the engine runs.", "quantifier": "every number of outstanding sends and every schedule", "why_tests_cant": "all interleavings", "anchors": ["src/message.rs: try_key SEND:{sequence_id}", "src/client_manager.rs"]}
{"id": "C78", "title": "Only requests the engine never took can hang after it stops", "statement": "Once the engine has stopped, a request that has not completed is still with its client: being handed over (and then it is refused) or in the client's channel (and then it fails when the client is dropped). Every request the engine took has completed.", "quantifier": "every crash point", "why_tests_cant": "all crash points", "anchors": ["src/engine.rs", "src/client.rs: send_command_and_resolve", "src/pulsar.rs: start_pulsar"]}
{"id": "C79", "title": "Dropping a client touches nothing else by itself", "statement": "Dropping a consumer or producer changes no other client, no request, no connection and nothing of the engine; and what it had queued is still served: the engine stops for the drop only once the client's queue is empty.", "quantifier": "every population of clients and every time of drop", "why_tests_cant": "all drop points", "anchors": ["src/client_manager.rs: next", "src/pulsar.rs: handle_client_outbound, start_pulsar"]}
{"id": "C80", "title": "Everything received before a connection closed is processed", "statement": "When a broker connection closes, every event already received from it is still processed, in order, before the engine stops.", "quantifier": "every state and every time of disconnection", "why_tests_cant": "all crash points", "anchors": ["src/connection.rs: start_connection", "src/connection_manager.rs: next", "src/pulsar.rs: handle_connection_inbound"]}
{"id": "C81", "title": "Where a registration goes after lookup", "statement": "The producer or subscribe command goes to the broker the first lookup names if the answer asks for the proxy, and to the configured broker otherwise.", "quantifier": "every lookup response", "why_tests_cant": "all responses", "anchors": ["src/client.rs: lookup_topic"]}
{"id": "C82", "title": "A failed first lookup surfaces", "statement": "If the first lookup made while resolving a topic is answered with 'failed', resolving the topic returns ConnectionFailed and nothing further is issued.", "quantifier": "every sequence of lookup responses", "why_tests_cant": "all response sequences", "anchors": ["src/client.rs: lookup_topic"]}
{"id": "C83", "title": "A queued command stays servable", "statement": "A client whose command is queued can be served whenever the engine is between two events, and this stays so until it is served or the engine stops.", "quantifier": "every schedule", "why_tests_cant": "all schedules", "anchors": ["src/client_manager.rs: next (select_all)"]}
{"id": "C84", "title": "The engine panics only where the outside world makes it", "statement": "Handling what a connection delivers never panics; handling a client's command panics only if the auth plugin panics or a connection has to be opened and the configured URL is one on which the TLS layer panics; if the first connection could be opened, later ones do not panic.", "quantifier": "every reachable state and every next event", "why_tests_cant": "all histories", "anchors": ["src/pulsar.rs: handle_client_outbound (unwrap)", "src/message.rs: From<Vec<Ack>>"]}
{"id": "C85", "title": "Registration is at least queued when creation returns", "statement": "Whatever the interleaving, when creating a client returns, the engine knows that client or its registration is queued, and once known it stays known; if creations do not overlap and none is cancelled, the engine knows it. If the engine is gone and no reply of another creation is left, creation fails.", "quantifier": "every interleaving of creations", "why_tests_cant": "all interleavings of concurrent registrations", "anchors": ["src/pulsar.rs: PulsarManager::register, handle_registration"]}
{"id": "C86", "title": "send_all hands every message over once, in order", "statement": "send_all issues the messages that can be serialised one by one in the given order, each exactly once; when it returns, each one the engine accepted has been confirmed by a receipt with its own sequence id or has failed.", "quantifier": "every list of messages and every combination of per-message outcomes", "why_tests_cant": "all outcome combinations", "anchors": ["src/producer.rs: send_all"]}
{"id": "C87", "title": "ack_all sends one acknowledgement per message, in order", "statement": "ack_all issues exactly one acknowledgement per given message in order; when it returns, each one the engine accepted has been answered by the broker or has failed.", "quantifier": "every list of acks and every combination of outcomes", "why_tests_cant": "all outcome combinations", "anchors": ["src/consumer.rs: ack_all"]}
{"id": "C88", "title": "Any mix of next_batch and next_message is exact on unbatched streams and never duplicates", "statement": "If no batch arrives, the messages returned by any mix of calls are the received messages in order, each exactly once, and a call waits only when all have been handed out. For every stream nothing is handed out twice and nothing is made up.", "quantifier": "every stream and every sequence of calls", "why_tests_cant": "all sequences", "anchors": ["src/consumer.rs: next_batch (pop, leftover next_messages)"]}
{"id": "C89", "title": "A failed or cancelled next_batch loses nothing of an unbatched stream", "statement": "If no batch arrives, a next_batch call that is dropped while waiting or fails because the engine is gone takes no message with it: the next call gets the next message.", "quantifier": "every failure and cancellation point", "why_tests_cant": "all crash points", "anchors": ["src/consumer.rs: next_batch"]}
{"id": "C90", "title": "Bounds under which batches do not starve a consumer", "statement": "With next_message and consume, batches of at most D messages and up to n calls at once never starve the consumer if D * (P - 1 + n) <= 2 * P; with next_batch(k), one call at a time, batches of any size up to k never do.", "quantifier": "every stream of batches within the bound, every interleaving", "why_tests_cant": "needs long histories", "anchors": ["src/consumer.rs: check_and_flow, next_message (buffer path)"]}
{"id": "C91", "title": "Prefetch grows by at most one per message", "statement": "With single messages and one call at a time, the permits the broker holds never exceed twice the configured prefetch plus the number of messages taken.", "quantifier": "every history", "why_tests_cant": "growth over unbounded histories", "anchors": ["src/consumer.rs: check_and_flow (message_permits * 2 + overflow)"]}
{"id": "C92", "title": "Permit accounting is exact for calls that do not overlap", "statement": "When receiving calls do not overlap, while one waits with nothing in the channel the broker has been granted exactly 2P permits initially and 2P more for every P messages received.", "quantifier": "every history of non-overlapping calls", "why_tests_cant": "unbounded histories", "anchors": ["src/consumer.rs: check_and_flow, next_message"]}
{"id": "C93", "title": "Undecodable single messages surface in their place", "statement": "If no batch arrives, message by message, a payload that can be decoded is handed out and one that cannot makes the call at its place return DeserializationFailed; and if every payload of every batch can be decoded, no call crashes.", "quantifier": "every stream with undecodable single payloads at any position, any mix of calls", "why_tests_cant": "all positions", "anchors": ["src/consumer.rs: Consumer::next"]}
{"id": "C94", "title": "Unusable addresses are reported as errors", "statement": "Opening a connection to an address that cannot be used returns an error.", "quantifier": "every address and every outcome of URL parsing, dialling and handshake", "why_tests_cant": "all addresses", "anchors": ["src/connection.rs: PulsarConnection::connect", "src/broker_address.rs: is_tls"]}
{"id": "C95", "title": "Queued commands are flushed on shutdown unless more arrives", "statement": "After the engine stops, while the connection lives what it has taken followed by what is queued does not change; and, if the broker sends nothing more, the connection can write all of it, in order, and then ends.", "quantifier": "every reachable stopped state", "why_tests_cant": "all crash points", "anchors": ["src/connection.rs: start_connection", "src/engine.rs: recv"]}
{"id": "C96", "title": "ack reports rejections", "statement": "If the broker answers an acknowledgement with an error, ack returns an error.", "quantifier": "every schedule, every message id and every broker answer", "why_tests_cant": "all interleavings and all answers", "anchors": ["src/consumer.rs: ack", "src/client.rs: ack, send_command_and_resolve", "src/message.rs: AckReciept"]}
{"id": "C97", "title": "The engine stops only for a reason", "statement": "The engine stops only because the first connection could not be opened, a client was dropped (or its creation given up) and nothing is left to do for it, the authentication plugin gave no credentials for a connect, a further connection could not be opened for a connect, a broker connection ended, or the PulsarManager was dropped; if none of these ever happens the engine runs on, whatever else happens.", "quantifier": "every history of clients, engine, connections, brokers and network", "why_tests_cant": "all histories; a test cannot show that nothing else stops it", "anchors": ["src/pulsar.rs: start_pulsar, handle_client_outbound, handle_connection_inbound, handle_registration", "src/client_manager.rs: next", "src/connection_manager.rs: next"]}
{"id": "C98", "title": "Losing a broker connection never leaves the instance hanging", "statement": "When a broker connection ends, the engine always gets to process what was received from it and stop; it does not wait for something that can no longer happen.", "quantifier": "every state and every time of disconnection", "why_tests_cant": "absence of progress under all schedules", "anchors": ["src/pulsar.rs: send_to_connection (rx.await)", "src/connection.rs: start_connection", "src/engine.rs: send"]}
{"id": "C99", "title": "A connection ends only for a reason", "statement": "A broker connection ends only because the peer closed it, the decoder, the encoder or the conversion of a command panicked, or the engine stopped; frames that cannot be decoded, unsupported commands and failed writes are skipped without ending it.", "quantifier": "every history", "why_tests_cant": "all histories", "anchors": ["src/connection.rs: start_connection, ConnectionStream"]}
{"id": "C100", "title": "A confirmed send has arrived, whole and once", "statement": "If brokers confirm only sends they have completely received and no other producer of the instance has used the same sequence id, then once send (or send_batch) has its receipt, some broker has been sent the complete SEND command with exactly the message(s) of that call; and over all sockets no send is ever on the wire twice, whatever fails.", "quantifier": "every history, every cutting of the bytes, every pattern of failed and partial writes", "why_tests_cant": "all histories, byte boundaries and failures", "anchors": ["src/producer.rs: send, send_batch", "src/client.rs: send_message, send_batch", "src/connection.rs: start_connection", "src/codec.rs: encode", "src/command_resolver.rs"]}
{"id": "C101", "title": "An idle instance rests", "statement": "Whatever the application has dropped, an engine with nothing to do makes no steps (it does not burn CPU).", "quantifier": "all reachable states of an instance", "why_tests_cant": "It is about what does not happen for ever; a test can only wait for a while, and the busy loop changes no observable state.", "anchors": ["src/pulsar.rs: handle_next", "src/pulsar.rs: get_next"]}
{"id": "C102", "title": "The engine works only on what it is given", "statement": "While the application keeps its PulsarManager, the number of engine steps is at most two per command handed over, one per registration and one per command read from a socket, plus two for starting and stopping; with nothing to do it can make no step. Without the manager the same holds for all steps except noticing that the manager is gone.", "quantifier": "all runs of an instance, any length and interleaving", "why_tests_cant": "A bound on the number of steps of every schedule; tests see single schedules.", "anchors": ["src/pulsar.rs: get_next", "src/pulsar.rs: handle_next", "src/pulsar.rs: start_pulsar"]}
{"id": "C103", "title": "Dropping everything closes everything", "statement": "After the application has dropped the manager and all clients, the engine ends and all sockets are closed.", "quantifier": "all reachable states in which everything is dropped", "why_tests_cant": "Whether something is left running for ever is not visible to a finite test.", "anchors": ["src/pulsar.rs: send_to_connection", "src/pulsar.rs: start_pulsar", "src/connection.rs: start_connection"]}
{"id": "C104", "title": "Dropped instances wind down unless a CONNECT is unanswered", "statement": "With everything dropped and the engine between two events, the engine always has a step that stops it or uses up something given to it before, the number of such steps is bounded, nothing but sockets can give it more, and once it has stopped each connection writes what is queued and closes.", "quantifier": "all reachable states in which everything is dropped, all continuations", "why_tests_cant": "Quantifies over all histories leading to the drop and all schedules after it.", "anchors": ["src/pulsar.rs: get_next", "src/pulsar.rs: handle_next", "src/client_manager.rs: next", "src/connection.rs: start_connection"]}
{"id": "C105", "title": "The value sent is the value received, from the producer's call to the consumer's", "statement": "One instance has a producer that hands over values with send and send_batch (batches of two or more, each payload under 2 GiB); a broker relays the sends it received whole to a consumer of another instance, among anything else, possibly leaving some out. Whatever fails on either side, however bytes are cut up and whatever the schedules, the values the consumer's calls (next_message and the rest, not next_batch) hand out are, in order, the beginning of the values of some of the producer's calls: none altered, invented, repeated or reordered. If no write failed, everything handed over was written to that broker, the broker relays every send, and the consumer has read, passed on and asked for everything, then the values handed out are exactly the values sent.", "quantifier": "every pair of executions of two instances (any clients, brokers, failures, schedules, chunkings), every relaying broker, every list of values and every serialiser with a left inverse", "why_tests_cant": "It composes both codecs, both engines, two unbounded executions and every interleaving; a test fixes one of each and no test has a network that cuts bytes and fails at every point.", "anchors": ["src/producer.rs: Producer::send", "src/producer.rs: Producer::send_batch", "src/codec.rs: Codec", "src/connection.rs: Connection::start_connection", "src/pulsar.rs: Pulsar::run", "src/message.rs: Send", "src/message.rs: Message", "src/consumer.rs: Consumer::next_message"]}
{"id": "C106", "title": "Builders use the value given last, and check for missing values first", "statement": "For a consumer, producer or instance builder, whatever the number and order of the setter calls, the value given last for each setting is the one used (plugins: all, in the order added), and if a mandatory value was never given, connect/build panics before it has allocated an id, registered anything or sent anything. connect otherwise allocates one id, registers it under the topic, and then does exactly what the handshake (C40) does; the object returned has the settings given, and every other result is the error of the step that failed.", "quantifier": "every list of setter calls, every outcome of registration and of each step of the handshake, and every point at which the caller may drop the call", "why_tests_cant": "the settings are arbitrary sequences of calls; a test sees some orders only, and not that nothing happened before a panic", "anchors": ["src/consumer.rs: ConsumerBuilder", "src/producer.rs: ProducerBuilder", "src/pulsar.rs: PulsarBuilder"]}
{"id": "C107", "title": "A value that cannot be serialised is reported as an error, and nothing of it is sent", "statement": "If a value given to send, send_batch or send_all cannot be serialised, the call returns an error, and nothing is handed to the connection for it.", "quantifier": "every serialiser, every value and list of values, every outcome of the broker", "why_tests_cant": "the serialiser is the user's: a test uses types that serialise", "anchors": ["src/producer.rs: Producer::send, send_batch, send_all"]}
{"id": "C108", "title": "Unreadable data costs its connection, at the next poll, and nothing before", "statement": "Whatever arrives on a socket, the connection reads commands, then at most one error, then at most one end; nothing is read behind an error. The error by itself completes or fails no request, notifies no client and ends no connection; the poll after it ends the connection, whatever else has arrived meanwhile.", "quantifier": "every byte stream, chunking, read failure and schedule", "why_tests_cant": "garbage, its position and the schedule around it are unbounded", "anchors": ["src/connection.rs: ConnectionStream::next, PulsarConnection::start_connection", "src/codec.rs: Codec::decode"]}
{"id": "C109", "title": "Any conforming protobuf encoding is read as what it says", "statement": "Whatever message a peer encodes and however it encodes it (fields in any order, numbers padded with extra varint bytes, lists packed or one by one, unknown fields in between, singular fields set several times), the client reads exactly that message, and a frame containing such encodings, with any checksum bytes, yields exactly that command and leaves exactly the bytes after it. What the client writes is itself such an encoding, and of no other message.", "quantifier": "every message type of the schema, every byte string, every message; every frame and every continuation", "why_tests_cant": "a test round-trips the library's own encodings; a broker's library may use any of infinitely many others", "anchors": ["src/codec.rs: Codec::decode", "build.rs", "src/protos/pulsar.proto"]}
{"id": "C110", "title": "A request is held up only by what is ahead of it", "statement": "A command a client has handed over is passed on to its connection once the engine has served that client once for each command the client handed over before it and once more; a command handed to a connection is written once the connection has taken the commands before it and itself; a command read from a socket is handled once the engine has served that connection for those before it and itself; a registration likewise. Other clients, other connections and broker traffic do not matter.", "quantifier": "every reachable state, every position in every channel, every continuation (arbitrary interleaving of all tasks) in which the channel is served often enough", "why_tests_cant": "it is about every interleaving with unbounded other traffic; a test runs a few schedules", "anchors": ["src/pulsar.rs: get_next, handle_next", "src/client_manager.rs: next", "src/connection_manager.rs: next", "src/connection.rs: start_connection", "src/engine.rs: EngineConnection"]}
{"id": "C111", "title": "An answered request completes", "statement": "Once the answer to a request has been read from a socket, the caller's request completes: at the latest when the engine has handled what was read from that socket before the answer and the answer itself, and in any case when nothing read from that socket is left to handle, or the engine has stopped. Until then an idle engine is able to go on.", "quantifier": "every reachable state, every request passed on and unanswered so far, every position of the answer among what was read, every continuation", "why_tests_cant": "liveness over all schedules and all other traffic; a test can only show that one schedule terminates", "anchors": ["src/client_manager.rs: send", "src/command_resolver.rs: put, try_resolve", "src/pulsar.rs: handle_connection_inbound"]}
{"id": "C112", "title": "A client waits only for clients registered before it", "statement": "The engine looks at its clients in the order of their registration. A command waits at most for what the clients registered before its own have handed over, or hand over meanwhile, and for what its own client handed over before; clients registered later never delay it. (C41: clients registered earlier can delay it for ever.)", "quantifier": "every reachable state, every client and queued command, every continuation whose services follow select_all's order", "why_tests_cant": "it bounds the wait over all schedules; a test measures one", "anchors": ["src/client_manager.rs: next", "src/pulsar.rs: get_next"]}
{"id": "C113", "title": "A successful connect means a broker accepted the client", "statement": "When connect() of a consumer or producer builder returns Ok, the new client is the one with the configured name, its first commands were, in this order, the complete connection script (CONNECT, LOOKUP, possibly a second CONNECT or LOOKUP for the broker found, SUBSCRIBE or PRODUCER with the configured topic and subscription, and for a consumer the first FLOW of twice 250 permits), and for every one of these that has a response, a command read from a broker's socket of the kind that request asks for is what resolved it.", "quantifier": "every program of the application (any number of connects and calls in concurrent tasks, any of them cancelled at any await), every behaviour of the brokers and sockets, every schedule of tasks", "why_tests_cant": "it ranges over all interleavings of the connects with all other calls, tasks and broker behaviours", "anchors": ["src/consumer.rs: ConsumerBuilder::connect", "src/producer.rs: ProducerBuilder::connect", "src/pulsar.rs: PulsarManager::register", "src/client.rs"]}
{"id": "C114", "title": "With the OAuth2 plugin every CONNECT carries a valid token", "statement": "When the instance is built with the OAuth2 plugin, every CONNECT passed on to a connection names the method token and carries the access token the endpoint issued in the plugin call made for it, or one issued earlier whose lifetime had not passed at that call; if the plugin fails, nothing is passed on and the engine stops.", "quantifier": "every run of the engine, every sequence of answers of the token endpoint and of clock readings", "why_tests_cant": "all schedules, histories and clock readings", "anchors": ["src/pulsar.rs: handle_client_outbound", "src/auth.rs: OAuth2Plugin"]}
{"id": "C115", "title": "A dropped consume loses no message", "statement": "If consume() is dropped, every message it had received has been offered to every plugin, or is returned by the next receiving call.", "quantifier": "every cancellation point, every interleaving of receiving calls", "why_tests_cant": "all cancellation points and interleavings", "anchors": ["src/consumer.rs: consume"]}
{"id": "C116", "title": "A failed connect does not disturb the other clients", "statement": "When one consumer's or producer's `connect` fails (for instance because its topic cannot be looked up), the other consumers and producers of the same Pulsar instance go on working: their requests are not cancelled and their later calls do not fail because of it.", "quantifier": "every execution of an application over the whole client, every moment at which a `connect` fails, every other client", "why_tests_cant": "A test creates one client per instance; whether a failure in one constructor can reach another client depends on the engine's handling of a channel whose owner is gone, in every schedule.", "anchors": ["src/consumer.rs: ConsumerBuilder::connect", "src/producer.rs: ProducerBuilder::connect", "src/engine.rs: Engine::next, run", "src/client_manager.rs: ClientManager::register"]}
{"id": "C117", "title": "What a successful send, send_batch or ack means to the application", "statement": "When an application, starting from `new` and calling the library in any way it likes (other clients, dropped futures, failed connects, several calls on one client), gets `Ok(())` from `producer.send(m)` or `producer.send_batch(ms)`, the message (every message of the batch) was serialised, handed to the engine as one SEND of that producer, and a response filed under that SEND's key was read from a broker connection. If brokers send receipts only for SENDs they have received in full and no other producer of the instance used one of this producer's sequence ids, some broker has received, whole, a SEND command with exactly that payload. `ack(id)` returning `Ok(())` means the ACK of that id was handed to the engine and a response to an acknowledgement was read.", "quantifier": "all application programs and interleavings (start, continue, drop of any call), all engine schedules, byte streams and chunkings, write outcomes, payloads and serialisers", "why_tests_cant": "a test sends a message through a mock; the claim is that on no schedule, with no other calls around it and no bytes from the network, `Ok` comes from anything but a response read for that request", "anchors": ["src/producer.rs:Producer::send", "src/producer.rs:Producer::send_batch", "src/consumer.rs:Consumer::ack", "src/client.rs:Client::send", "src/client.rs:Client::send_batch", "src/client.rs:Client::ack", "src/engine.rs", "src/command_resolver.rs"]}
{"id": "C118", "title": "A send or ack fails only for one of the known reasons", "statement": "In any application run, a `send`/`send_batch` that does not return `Ok(())` either could not serialise its message (`SerializationFailed` for send, a panic for send_batch), or returned `ChannelTerminated` and then the engine has stopped or another client made a SEND with the same sequence id and the two were outstanding (handed over, not yet completed) at the same moment (one takes the waiting place of the other). An `ack` that does not return `Ok(())` returned `ChannelTerminated`, and the engine has stopped or another acknowledgement of the instance was outstanding at the same moment as this one. No other failure, and no failure because of what a broker wrote, exists; while the engine runs a request is dropped only by another with the same key.", "quantifier": "all application programs and interleavings, all engine schedules, broker bytes, write outcomes; at most 2^64 sends by the producer", "why_tests_cant": "the absence of any other cause of failure over all schedules and histories cannot be shown by running some of them", "anchors": ["src/producer.rs:Producer::send", "src/producer.rs:Producer::send_batch", "src/consumer.rs:Consumer::ack", "src/command_resolver.rs:CommandResolver::put", "src/engine.rs"]}
{"id": "C119", "title": "What an application does one after the other stays in order", "statement": "If a `send` or `send_batch` on a producer has returned Ok before another one is called on the same producer, the first message has the smaller sequence id, its SEND is given to the engine first, and in the bytes any broker receives it comes before the second. Within one `send_all` the serialisable messages, and within one `ack_all` the acknowledgements, are given to the engine each once and in list order while the engine runs.", "quantifier": "all application programs and interleavings around the calls, all engine schedules, write outcomes (short, failed writes), payloads; up to 2^64 sends and clients", "why_tests_cant": "the order must survive every schedule of engine, connection tasks and other callers and every failed write, not just those a test hits", "anchors": ["src/producer.rs:Producer::send", "src/producer.rs:Producer::send_batch", "src/producer.rs:Producer::send_all", "src/consumer.rs:Consumer::ack_all", "src/client.rs", "src/engine.rs", "src/connection.rs", "src/codec.rs"]}
{"id": "C120", "title": "A call is held up only by what it waits for", "statement": "While a connect, send, send_batch, send_all, ack or ack_all is in progress it can always make its next step, unless it awaits the response to a request that has been neither answered nor dropped, or the engine's reply to the registration of its client while the engine runs. Left to itself it ends, or comes to such a wait, after finitely many steps: it never deadlocks with another call on the same client, never spins, and a failed connect can always drop its client. While it waits it can be dropped; dropping a connect drops its client, dropping any other call leaves the client usable.", "quantifier": "every run of the whole client, any number of concurrent calls on any clients, every interleaving", "why_tests_cant": "Deadlock freedom and termination of each call range over all schedules and all states other calls leave behind; a test shows only that one schedule got through.", "anchors": ["src/client.rs send_command send_and_resolve", "src/pulsar.rs register", "src/consumer.rs ConsumerBuilder::connect", "src/producer.rs ProducerBuilder::connect", "src/engine.rs EngineConnection::send"]}
{"id": "C121", "title": "Nothing is sent that the application did not ask for, and nothing twice", "statement": "Whatever whole command any broker has been sent is a PONG, a FLOW of a consumer, or what one step of one call of the application handed over, carrying that step's arguments and the id and name of the client it was called on; different commands on the wire come from different steps. In particular every ACK on the wire is an ack call the application made on that consumer with that message id, and every SEND carries the message or batch of a send the application made on that producer.", "quantifier": "All configurations, all programs of the application (any number of concurrent connects, sends, acks, dropped at any point), all schedules, all broker behaviour and write failures; all brokers and all positions in what they were sent.", "why_tests_cant": "A test sees the commands of one run. Spurious or duplicated commands would come from interleavings of the engine, failed writes and dropped calls, for all of which the claim must hold.", "anchors": ["src/client.rs:Client", "src/engine.rs:EngineConnection", "src/pulsar.rs:Pulsar::handle_client_outbound", "src/connection.rs:PulsarConnection", "src/message.rs:Outbound"]}
{"id": "C122", "title": "The OAuth2 token request carries the configured credentials, exactly", "statement": "Whatever characters the configured client id, secret, scopes and audience contain, the request made for a token goes to the authority's token endpoint, and a server that reads its form body by the URL standard gets exactly these values, the audience only if one is configured, and the client-credentials grant; different credentials give different requests; the scopes can be told apart unless one contains a space.", "quantifier": "all client ids, secrets, authorities, scope lists and audiences", "why_tests_cant": "The values can contain the form's own separators, escapes and any Unicode character; tests use plain ones.", "anchors": ["src/auth.rs:ClientCredentialsOAuth2::new", "src/auth.rs:request_new_token", "src/auth.rs:OAuth2TokenRequest"]}
{"id": "C123", "title": "A client closed by the broker is told", "statement": "When a broker announces that it has closed a consumer or producer (CLOSE_CONSUMER, CLOSE_PRODUCER), the calls on it end with an error.", "quantifier": "all runs and points at which the notice is read", "why_tests_cant": "The notice can come at any point of any run.", "anchors": ["src/message.rs:TryFrom<MessageCommand> for Inbound", "src/connection.rs:start_connection"]}
{"id": "C124", "title": "Commands the client does not understand have no effect", "statement": "Whenever a command of a type the client does not support is read from a socket, nothing else changes: not the instance, its clients and connections, the pending calls, what has been and will be written, nor any other socket.", "quantifier": "all reachable states of the whole client, all commands of unsupported types", "why_tests_cant": "A command can arrive in any state.", "anchors": ["src/connection.rs:start_connection", "src/message.rs:TryFrom<MessageCommand> for Inbound"]}
{"id": "C125", "title": "An error's text says which error it is", "statement": "Two errors that print the same are the same error, including their details; the details are printed whole.", "quantifier": "all errors with all detail texts", "why_tests_cant": "Details are arbitrary texts and could imitate another error's text.", "anchors": ["src/error.rs:Display for NeutronError"]}
{"id": "C126", "title": "A response that has arrived reaches the call that waits for it", "statement": "Once a request has been passed to a connection and the broker's response to it is among the bytes that arrived on a socket, the call waiting for it goes on as soon as the connection task has polled that socket once per command up to the response and the engine has then handled what was passed to it; it does not matter what else arrives, what other clients do, or how the bytes were cut up. A CONNECTED completes the Connect the engine waits for in the same way.", "quantifier": "all runs of the whole application; all commands before and behind the response; all continuations", "why_tests_cant": "It ranges over all interleavings of sockets, connection tasks, engine and calls, and all splits of the byte stream.", "anchors": ["src/connection.rs:ConnectionStream::next", "src/connection.rs:PulsarConnection::start_connection", "src/pulsar.rs:Pulsar::start_pulsar", "src/pulsar.rs:Pulsar::handle_connection_inbound", "src/client.rs:Client::connect"]}
{"id": "C127", "title": "What a client hands over reaches its broker", "statement": "A command a client has handed over is passed on to the connection of a broker once the engine has taken what was in the client's channel before it and the command itself; and once that connection's task has written as many commands as were waiting for it, the bytes the socket has accepted contain the whole command (a Connect with the authentication data and proxy address filled in). So a request of an application's call has been received by a broker as soon as the engine and the connection have nothing left to do for it. Assumed: the engine runs, the connection is up, the socket accepts what is written, the commands are valid ones below 4 GiB.", "quantifier": "every run of the whole instance, every client and broker, every position in the channel, every continuation in which the engine and the connection task are scheduled often enough", "why_tests_cant": "liveness over all schedules: however many other clients, connections, commands and reads are interleaved", "anchors": ["src/pulsar.rs", "src/connection.rs", "src/engine.rs", "src/client.rs"]}
{"id": "C128", "title": "A send, send_batch or ack whose response arrives returns Ok", "statement": "Let a send (send_batch, ack) of the application have handed over its message, and the engine have taken it. If the broker sends a receipt with the sequence id of that SEND (for ack: an ACK_RESPONSE), then, whatever else happens meanwhile, once the connection has polled its socket often enough to read the receipt and the engine has handled what was passed to it, the call returns Ok after at most two more steps of its own. Exceptions: the call was dropped, the instance has stopped, or a send of another producer with the same sequence id (for ack: another acknowledgement of the instance) was outstanding at the same moment as this one.", "quantifier": "all runs of a whole instance, with any number of producers, consumers, connections and calls in any interleaving; all places of the receipt in what the broker sends; all schedules of connection tasks, engine and calls", "why_tests_cant": "the receipt can arrive after any other data, cut anywhere, while other calls, clients and connections do anything; that the call is nevertheless woken with Ok depends on the codec, the connection, the engine's table of waiting requests and the call itself over all schedules", "anchors": ["src/producer.rs: Producer::send, Producer::send_batch", "src/consumer.rs: Consumer::ack", "src/client.rs: send_command_and_resolve", "src/command_resolver.rs: try_resolve", "src/connection.rs: Connection", "src/pulsar.rs: Pulsar::handle_inbound_command"]}
{"id": "C129", "title": "A waiting consumer's broker still holds permits it has not used, counted on the wire", "statement": "Once a consumer's `connect` has returned Ok, all the permits the consumer counts as granted (the 500 of connect, and those of every later refill) reach its broker in FLOW commands that carry this consumer's id, provided the engine has taken its commands and the connection has written them. With at most 251 receiving calls at a time, and single messages whose payloads decode, whenever a receiving call waits and nothing is left to read, pass on or write, the permits in the FLOW commands the broker has received exceed the number of messages it has sent to this consumer: the broker is never forbidden to send the next message.", "quantifier": "every run of an application of one Pulsar instance: any number of clients and calls, any schedule, any way of cutting bytes, any number of messages and refills", "why_tests_cant": "The permits counted by the consumer, the commands its client hands over, what the engine routes and what the connection writes are kept by four different tasks; a test sees one schedule and a few refills, while the claim relates the total on the wire to the total received at every quiet moment of every run.", "anchors": ["src/consumer.rs: check_and_flow, next_message, next_batch, connect", "src/client.rs: Client::flow", "src/engine.rs: PulsarEngine::handle_outbound", "src/connection.rs: PulsarConnection::handle_outbound", "src/message.rs: Flow"]}
{"id": "C130", "title": "A connection keeps reading while a write is held up", "statement": "While the task of a connection is alive, bytes that arrive from the broker are read even if the broker, for the time being, accepts no more bytes of what the client has to write. (False: the connection task waits inside the write and reads nothing until the write is over; a broker that stops reading until it is read from blocks the connection for ever. What holds: a connection that is not inside such a write can always read; a held-up write always has a command to write, nothing but the socket keeps it from ending, and when it ends the connection reads again; the other connections, the engine and the clients are not affected.)", "quantifier": "all runs of the client with any brokers and any network, all moments at which a socket stops accepting bytes, all continuations", "why_tests_cant": "Needs a socket with full buffers in both directions and says what cannot happen in any continuation, however long.", "anchors": ["src/connection.rs: PulsarConnection::start_connection, ConnectionStream::send, ConnectionStream::next"]}
{"id": "C131", "title": "A slow authentication or connection attempt of one client does not hold up the others", "statement": "While the instance asks the authentication plugin for credentials or dials a broker on behalf of one client, the commands of the other clients are passed on, the brokers' messages and responses are delivered and pings are answered. (False: until that attempt is over - no time limit is set - the engine passes on no command, delivers nothing, answers no ping and registers no client; commands queue up. What holds: whatever the plugin and the network finally answer, the engine is done with the attempt; the connections meanwhile read and write; only then does it wait for the broker's greeting, during which the same holds.)", "quantifier": "all runs with any number of clients, any plugin and network, all continuations until the attempt ends", "why_tests_cant": "Says what cannot happen in any continuation while an external party takes its time, for every interleaving of the other clients.", "anchors": ["src/pulsar.rs: Pulsar::handle_client_outbound, Pulsar::next, Pulsar::send_to_connection, start_pulsar", "src/engine.rs: Engine"]}
{"id": "C132", "title": "A connect fails only for one of the known reasons", "statement": "When a producer's or consumer's `connect` does not return `Ok`, one of these holds: a required setting was missing (it panics); it returned `ChannelTerminated` and the instance has stopped, or one of its own requests was displaced by a request of another client of the instance that was outstanding at the same moment and is confused with it (same kind); it returned `ConnectionFailed` and a lookup response of type Failed completed its own lookup of its topic and was received from a broker; it panicked and such a response of type Redirect was received. A `connect` never has two requests outstanding at once, so it cannot displace itself.", "quantifier": "all runs of a whole instance, with any number of clients, connects and calls in any interleaving; all settings, schedules, broker bytes and socket outcomes", "why_tests_cant": "the absence of any other cause of failure over all schedules and histories cannot be shown by running some of them", "anchors": ["src/consumer.rs: ConsumerBuilder::connect", "src/producer.rs: ProducerBuilder::connect", "src/client.rs: Client", "src/command_resolver.rs: CommandResolver::put", "src/engine.rs"]}
{"id": "C133", "title": "A connect whose responses arrive returns Ok", "statement": "A `connect` makes at most five requests. As long as all requests it has made are settled it goes on by itself: making steps of its own only, it returns, makes its next request, or comes to wait for the reply to its registration. Once the response to its last request (PRODUCER_SUCCESS for a producer, SUCCESS to the subscription for a consumer) has arrived on the socket, has been read by the connection and handled by the engine, `connect` returns Ok in at most two (producer) or four (consumer) steps of its own, whatever else happened meanwhile: provided it was not dropped, the instance has not stopped, and no other client made a request that the same response answers while this one was outstanding.", "quantifier": "every run of the instance and its application, every moment after the last command was handed over, every split of what arrives into reads, everything that happens between arrival and return", "why_tests_cant": "liveness under all schedules: a test shows one interleaving of socket reads, engine steps and the caller's steps", "anchors": ["src/pulsar.rs: ConsumerBuilder::connect, ProducerBuilder::connect", "src/consumer.rs: Consumer::connect", "src/producer.rs: Producer::connect", "src/client.rs: connect, lookup_topic, subscribe, producer", "src/engine.rs: PulsarEngine", "src/command_resolver.rs: CommandResolver"]}
{"id": "C134", "title": "A request id identifies a request on its connection", "statement": "Every request a connection carries can be told from all others by its request id: no two of the LOOKUP, PRODUCER, SUBSCRIBE and ACK commands put on one connection carry the same id. True when the producer or consumer the command names is taken into account (over all sockets, whatever failed, at most one whole PRODUCER, SUBSCRIBE or ACK naming p with request id r is ever sent), and true of all four kinds when the instance has a single producer or consumer; false otherwise: each client counts from 0, lookups name no client, and two clients of one instance put two different LOOKUPs with the same request id on one connection.", "quantifier": "every history of every instance (any number of clients, any schedule of engine, connections, sockets and write failures), every pair of whole frames on any sockets", "why_tests_cant": "The ids come from per-client counters shared by concurrent calls, and frames from different clients interleave on a connection in any order; a test sees a few interleavings and one client at a time.", "anchors": ["src/client.rs: next_request_id, lookup_topic, producer, subscribe, ack", "src/message.rs: From<LookupTopic>, From<Producer>, From<Subscribe>, From<Vec<Ack>> for MessageCommand", "src/engine.rs"]}
{"id": "C135", "title": "A producer or consumer stays on one connection", "statement": "Everything that names a producer or consumer goes over one connection. Whatever the application does with the calls this library offers, and whatever is dropped, delayed or fails: any two whole commands a broker could read that name the same producer or consumer (PRODUCER, SUBSCRIBE, SEND, ACK, FLOW) were sent on the same socket, however often its connect moved to another broker before it registered. So acknowledgements and permits reach the broker that delivers, and sends the broker the producer registered with.", "quantifier": "all runs of an application over an instance: any number of connect, send, send_batch, send_all, ack, ack_all and consume calls, at the same time, cancelled or not; all brokers, lookups and failures; any two sockets and commands; up to 2^64 clients", "why_tests_cant": "which socket a command goes to depends on all earlier lookups and on how the engine interleaves the clients; a test sees one topology and one schedule", "anchors": ["src/client.rs: connect, lookup_topic, send_message, ack, flow", "src/engine.rs: Engine::next", "src/client_manager.rs", "src/consumer.rs: ConsumerBuilder::connect", "src/producer.rs: ProducerBuilder::connect"]}
{"id": "C136", "title": "A consumer's messages are one broker's", "statement": "If brokers deliver to a consumer only on connections on which it has subscribed, then what a consumer hands to the application (other than by next_batch) comes from a single broker: there is one connection, the only one on which the consumer ever subscribes, such that everything handed out is the beginning of what the messages for it, in the order that broker sent them, mean to the application. This holds however the bytes are cut up, wherever the consumer had been connected before it subscribed, whether or not it has been dropped since, and whatever other brokers, other clients and the engine do. Once everything has been read, passed on and asked for while the engine runs, all of it has been handed out.", "quantifier": "all runs of an application over an instance: any number of connect, send, ack, consume and other calls, cancelled or not; all brokers, lookups, moves behind proxies, chunkings and failures; up to 2^64 clients", "why_tests_cant": "it composes framing, routing, the set-up of a consumer and its receive path under every interleaving and topology; a test sees one topology and one schedule", "anchors": ["src/consumer.rs: ConsumerBuilder::connect, next_message, consume", "src/client.rs: connect, lookup_topic, next", "src/engine.rs: Engine::next", "src/connection.rs: start_connection", "src/client_manager.rs: send"]}
{"id": "C137", "title": "A plugin may use the consumer it is given", "statement": "Plugins are handed the consumer along with each message. While a plugin works on a message, it may call next_message on that consumer and gets the next message, if there is one, without waiting for anything else; and it may call consume. The second part is false: consume holds its plugins while they work, so while one plugin works no plugin, not even of another consume call, is offered anything; a consume the plugin calls returns only if receiving fails before it received anything, and once it has received a message neither call ever ends, whatever happens, unless one of them is dropped.", "quantifier": "every run of any number of next_message, next_batch and consume calls of one consumer, any number of plugins, any messages, every continuation of the run", "why_tests_cant": "that a call never ends needs every continuation of the run, and one-at-a-time every interleaving of the calls", "anchors": ["src/consumer.rs: ConsumerEngine::consume, next_message, ConsumerPlugin::on_message"]}
{"id": "C138", "title": "Only messages the application was given are acknowledged", "statement": "If an application acknowledges only messages it was given (it has no other way: an Ack has no public constructor), then every ACK for its consumer that is on any connection's socket, at any moment, names the id of a message that one of the consumer's receiving calls had returned, and that a broker had sent to it. So a message no receiving call returned, for instance one that was lost inside the client by a dropped call, a failing batch or a crash, is never acknowledged: the broker still has it and can deliver it again.", "quantifier": "every run of the whole client: any calls by any number of tasks, schedules, brokers, messages, failures, drops, and every moment to stop it", "why_tests_cant": "it needs every schedule and crash point, and all the ways a message can be lost inside the client", "anchors": ["src/consumer.rs: Consumer::ack, next_message, next_batch, Ack", "src/client.rs: PulsarClient::ack, ack_all", "src/message.rs: Ack"]}
{"id": "C139", "title": "Acknowledging one message of a batch acknowledges only that message", "statement": "Every message of a batch can be acknowledged by itself, and a broker that receives the ACK counts only that message as acknowledged. True is that the ACK concerns no entry but the message's own batch. False is the rest: the ACK of any one message of a batch, delivered without an ack_set, carries no ack_set either, and that acknowledges the whole batch: after acknowledging the first message a crash loses all others.", "quantifier": "every batch a broker can deliver, every message of it, every client state, connection options and time", "why_tests_cant": "it must hold for every batch and every message in it, on the bytes of the ACK", "anchors": ["src/message.rs: impl From<MessageCommand> for Message (batch ids), Ack", "src/client.rs: PulsarClient::ack", "src/message.rs: CommandAck"]}
{"id": "C140", "title": "next_batch used alone with room for whole batches loses nothing", "statement": "If an application receives with next_batch only, each time with a bound at least as large as any batch that arrives, then whatever the number of calls, their schedule and the calls dropped, the messages handed out are the first part of what arrived, each exactly once and message by message in arrival order (the parts of one batch in reverse order); a call waits only when everything has been handed out; and whenever no call is in progress a new call hands out all of the next message.", "quantifier": "every run of a consumer: any number of concurrent or dropped next_batch calls with such bounds, every schedule, every stream of single messages and batches", "why_tests_cant": "it needs every interleaving, every point at which a call can be dropped, and every stream", "anchors": ["src/consumer.rs: Consumer::next_batch, next"]}
{"id": "C141", "title": "A receiving call does not wait while it has messages", "statement": "A next_message or next_batch call that waits for the broker has nothing for the application: everything that arrived has been handed out or is being handed out by another call.", "quantifier": "every run of a consumer, every schedule", "why_tests_cant": "it needs every state a call can wait in", "anchors": ["src/consumer.rs: Consumer::next_batch, next_message"]}
{"id": "C142", "title": "A waiting receive returns when a message arrives, and fails when the engine is gone", "statement": "A next_message, next_batch or consume call that waits for a message gets to its result by its own steps alone once any message arrives, whatever other calls are in progress or were dropped; and if the engine goes away when everything that arrived has been taken, it fails with ChannelTerminated.", "quantifier": "every run of a consumer: any calls, any schedule, any stream, any waiting call", "why_tests_cant": "it needs every state a call can wait in", "anchors": ["src/consumer.rs: Consumer::next, next_batch, next_message", "src/client.rs: Client::next_message"]}
{"id": "C143", "title": "Under a fair scheduler everything gets through", "statement": "In every execution that goes on forever, in which the engine keeps coming back to its loop and the scheduler does not neglect what it can do again and again: every command of a client is passed on, if the clients registered before it fall silent (or are, again and again, without waiting commands while the engine is in its loop); every command handed to a working connection is written; everything read from a socket is handled; every ping is answered by a pong on the wire; every message read for a consumer that stays on its connection gets into its channel; and every request of a registered client completes, if the broker answers what is written to it. That the clients before it fall silent is needed: otherwise a command can wait forever.", "quantifier": "every infinite execution: any clients, calls, brokers, broker traffic and schedule satisfying the fairness assumptions", "why_tests_cant": "it is about infinite executions; no finite test reaches the end of one", "anchors": ["src/pulsar.rs: next, get_next, handle_client_outbound, handle_connection_inbound", "src/client_manager.rs: next", "src/connection_manager.rs: next", "src/connection.rs: start_connection"]}
{"id": "C144", "title": "Under a fair scheduler every call returns", "statement": "In every execution of the whole (application, library, engine, connections) that goes on forever, in which the engine keeps coming back to its loop, the scheduler neglects neither registrations nor clients nor connections nor the call itself, the connections work and the brokers answer what is written to them: every connect of a consumer or producer and every send, send_batch, send_all, ack and ack_all whose future is not dropped returns - provided the clients registered before the call's own fall silent, or its own client gets its turn again and again. The same holds of any sequence of library calls on a client that waits only for what it has itself handed over.", "quantifier": "every infinite execution of the whole: any application, clients, concurrent calls, brokers, traffic and schedule satisfying the fairness assumptions; every call in it", "why_tests_cant": "it is about infinite executions and every interleaving of concurrent calls; a test that hangs proves nothing, and one that returns tried one schedule", "anchors": ["src/client.rs: send_and_resolve, connect, lookup_topic", "src/producer.rs: connect, send, send_all, send_batch", "src/consumer.rs: connect, ack, ack_all", "src/pulsar.rs: register, next, get_next", "src/client_manager.rs: next", "src/connection_manager.rs: next", "src/connection.rs: start_connection"]}
{"id": "C145", "title": "Under a fair scheduler everything that arrives is handed out", "statement": "In every infinite execution in which no receiving call is neglected, plugins come back and the engine is there: a call waiting for a message returns once one is in its channel; if messages keep arriving every next_message and next_batch returns, however many compete; as long as some consume or waiting next_message is there everything that arrives is handed out, in order; every message a consume was handed is given to every plugin. So in every infinite execution of the whole in which the engine keeps looping and serves the consumer's connection, every message read from the socket for the consumer reaches the application (and, with a single consume, every plugin) while it stays on that connection and the call is there.", "quantifier": "every infinite execution, of a consumer with any concurrent calls, drops and arrivals, and of the whole with any other clients, calls, brokers and schedule satisfying the fairness assumptions", "why_tests_cant": "it is about infinite executions and every interleaving of competing calls; a test tries one schedule and cannot tell slow from never", "anchors": ["src/consumer.rs: next, next_message, next_batch, consume, check_and_flow", "src/client.rs: next_message", "src/pulsar.rs: next, get_next, next_inbound", "src/connection.rs: start_connection"]}
{"id": "C146", "title": "Under a fair scheduler what a call hands over reaches a broker", "statement": "In every infinite execution of the whole in which the engine keeps looping, serves registrations and the caller's client, and the connections work: every command a client has handed over is received, whole, by some broker, whatever the brokers answer and even if the call or its client has been dropped since. So every send, send_batch, send_all, ack and ack_all that is made, not neglected and not dropped puts on the wire, complete, a SEND of that producer with that message (or that batch) or an ACK of that consumer for that message id; send_all and ack_all for every one of theirs.", "quantifier": "every infinite execution of the whole with any clients, calls, brokers, answers and schedule satisfying the fairness assumptions; every serialiser, message, batch and message id", "why_tests_cant": "it is about infinite executions and every interleaving of clients, engine and connection tasks; a test tries one schedule and cannot tell slow from never", "anchors": ["src/engine.rs: EngineConnection::send", "src/pulsar.rs: next, get_next, next_outbound, handle_outbound", "src/connection_manager.rs: send", "src/connection.rs: start_connection", "src/client.rs: send_message, send_batch, ack", "src/producer.rs: send, send_all, send_batch", "src/consumer.rs: ack, ack_all"]}
{"id": "C147", "title": "With the auto-ack plugin every message is acknowledged", "statement": "A plugin written like the repository's AutoAckPlugin (on_message is consumer.ack(&message.ack).await?) on a consumer on which consume has been called: (1) it never gets stuck: in every infinite execution in which engine, connections and brokers do their part and the consumer's client is not starved, it returns for every message it is given, unless the consume is dropped; so with only such plugins and others that come back the plugins never hold up consume. (2) whatever it has accepted has been acknowledged: its call of ack returned Ok, and a broker receives, whole, an ACK of that consumer with that message's id. (3) So every message read for the consumer that can be decoded is acknowledged, as long as consume goes on and the consumer stays on its connection. (4) The broker that receives the ACK is the one the consumer subscribed at.", "quantifier": "every infinite execution of the whole with any other clients, calls, plugins that come back, brokers, messages (single or batched) and schedule satisfying the fairness assumptions; any number of plugins and any position of the auto-ack plugin among them", "why_tests_cant": "it is about infinite executions, arbitrary interleavings of the plugin's own call with everything else, and an unbounded number of messages; a test tries one schedule and a few messages", "anchors": ["examples/consumer_plugins.rs: AutoAckPlugin::on_message", "src/consumer.rs: consume, next_message, ack", "src/client.rs: next_message, ack", "src/pulsar.rs: next, next_inbound, next_outbound", "src/connection.rs: start_connection"]}
{"id": "C148", "title": "A consumer whose broker serves its permits never runs dry", "statement": "A consumer's connect has returned Ok and the broker behind an address has its SUBSCRIBE. The application keeps receiving (consume, or next_message again and again; no next_batch; at most 251 receiving calls at a time, so that their uncounted messages are not as many as the permits of one grant), engine, connections, scheduler and plugins neglect nothing and the consumer's client is not starved. If the broker has M messages (single ones that can be decoded) for the consumer, and sends the next one whenever it has been given, in FLOW commands it received whole, more permits than messages it has sent, then the application is handed at least M messages: the first ones the broker sent, in the order it sent them. So the permits granted (2 x 250 when connecting, 2 x 250 and more each time at least 250 messages have been counted) keep up with the messages for ever. Also: every permit the consumer has granted is, sooner or later, received by that broker.", "quantifier": "every M, every infinite execution of the whole with any other clients, calls, plugins that come back, brokers, cuts of the bytes and schedules satisfying the fairness assumptions", "why_tests_cant": "it is about infinite executions and an unbounded number of messages and grants; that nothing is lost between the count, the grant, the FLOW on the wire and the message coming back depends on the interleaving of every part; a test tries one schedule and a bounded number of messages", "anchors": ["src/consumer.rs: consume, next_message, check_and_flow, flow, Inner", "src/client.rs: next_message, flow", "src/pulsar.rs: next, next_inbound, next_outbound", "src/connection.rs: start_connection", "src/codec.rs: encode, decode"]}
{"id": "C149", "title": "What is sent is received: from a producer's send to the consumer's application", "statement": "A producer's registration has reached a broker, a consumer's SUBSCRIBE has reached the same broker (the two clients in the same or in different instances), and this broker passes on: each SEND of that producer it has received whole it delivers once, in order, none left out, and it sends the next one whenever the FLOWs it has received allow it. On the producer only send and send_all are called, with messages the consumer can decode; on the consumer's side the assumptions of C148 hold. Then (1) at any time what the application has been handed is the values of the first messages the broker has received from the producer, in order: nothing altered, invented, repeated, skipped or out of order; (2) whatever the broker has received from the producer is handed to the application, all of it, sooner or later; (3) a send whose future is not dropped, with a message that can be serialised: the application is handed the value its payload decodes to; (4) the same for every message of a send_all.", "quantifier": "every pair of infinite executions with any other clients, calls, plugins, brokers, cuts of the bytes and schedules satisfying the fairness assumptions, every serialiser, decoder and message", "why_tests_cant": "it is a liveness statement about infinite executions of two clients, two engines, the connections' tasks and the broker between them; it depends on the interleaving of all of them and on permits keeping up for ever; a test tries one schedule and finitely many messages", "anchors": ["src/producer.rs: send, send_all", "src/consumer.rs: consume, next_message, check_and_flow", "src/client.rs: send_message, next_message, flow", "src/pulsar.rs: next, next_inbound, next_outbound", "src/connection.rs: start_connection", "src/codec.rs: encode, decode"]}
{"id": "C150", "title": "Consumers with the auto-ack plugin do not disturb each other as long as acknowledgements are made in turn; otherwise they do", "statement": "Several consumers of one instance, as in examples/multi_consumer.rs, each with plugins as in examples/consumer_plugins.rs. (1) If ack is called in turn throughout the instance (each call after all earlier ones have returned, on whatever consumer), two acknowledgements are never outstanding at the same time; (2) as long as the instance runs, an auto-ack plugin refuses a message only with ChannelTerminated and only because its ack was outstanding together with another one of the instance; (3) so, acknowledging in turn, a consume whose plugins are auto-ack plugins or never refuse and whose messages can be decoded goes on until it is dropped; (4) and it acknowledges every message that is read for it, under the fairness assumptions of C147 but without assuming that consume goes on. Without acknowledging in turn this is false: two consumers of a healthy instance each acknowledge a message at the same time, and the first one's consume ends with an error.", "quantifier": "every infinite execution of an instance with any consumers, producers, calls, plugins, brokers and schedules in which the engine runs on; for (4) the fairness assumptions of C147", "why_tests_cant": "it depends on which of several clients' calls are outstanding in one engine at the same time, for ever; a test tries one schedule, and the schedule that breaks it needs two plugins to be waiting at once", "anchors": ["src/consumer.rs: consume, next_message, ack", "src/pulsar.rs: next, next_outbound", "src/command_resolver.rs: put, try_resolve", "examples/multi_consumer.rs", "examples/consumer_plugins.rs"]}
{"id": "C151", "title": "What is sent is received and acknowledged: from a producer's send to the ACK at the broker", "statement": "A producer, a consumer with the auto-ack plugin of examples/consumer_plugins.rs (and other plugins, if any, that return Ok) and a broker between them that passes on what it receives as in C149. On the producer only send and send_all are called, with messages the consumer can decode; on the consumer consume is called once and not dropped; ack is called in turn throughout the consumer's instance; nothing is neglected and brokers answer. Then (1) the consume never ends; (2) whatever the broker has received from the producer the consumer's application is handed, all of it, in order; (3) everything the application is handed is acknowledged: the plugin's ack returns Ok and the broker that delivered the message receives an ACK of that consumer with exactly the id it gave the message; (4) so for each send whose future is not dropped, and for each message of such a send_all, the application is handed its value and the broker receives the ACK.", "quantifier": "every pair of infinite executions with any other clients, calls, plugins, brokers, cuts of the bytes and schedules satisfying the assumptions, every serialiser, decoder and message", "why_tests_cant": "it is a liveness statement about infinite executions of two clients, their engines and connections, the plugin and the broker; a test tries one schedule and finitely many messages", "anchors": ["src/producer.rs: send, send_all", "src/consumer.rs: consume, next_message, check_and_flow, ack", "src/pulsar.rs: next, next_inbound, next_outbound", "src/command_resolver.rs: put, try_resolve", "src/connection.rs: start_connection", "examples/consumer_plugins.rs"]}
{"id": "C152", "title": "Responses nobody waits for have no effect: unasked, repeated or late ones", "statement": "If a broker sends a response that no outstanding request of the engine waits for (a success, receipt, lookup or acknowledgement response with an unknown id, one that has been delivered already, one that comes after its request was displaced or failed, an unsolicited CONNECTED, PONG, ERROR or CLOSE notice, an authentication challenge), or a message for a consumer that is not there on that broker, then once the engine has handled it nobody can tell, now or ever, that it had been there: the state reached and the state in which it had not been there to handle behave alike - same calls and results, same messages to every consumer, same bytes to every broker - and each can do whatever the other can (a bisimulation over the whole application with its engine, connections and consumer).", "quantifier": "every execution, every point of it, every broker, every event read there that is neither a message, nor a ping, nor what an outstanding request asks for, and every continuation", "why_tests_cant": "it compares all continuations of two states of the whole system; a test compares one continuation", "anchors": ["src/pulsar.rs: next, next_inbound, manager_send", "src/command_resolver.rs: try_resolve", "src/consumer.rs: next_message", "src/client.rs: next_message", "src/connection_manager.rs: send"]}
{"id": "C153", "title": "An authentication challenge of the broker is answered", "statement": "When a broker sends AUTH_CHALLENGE (Pulsar does so when a token is about to expire) the client answers with AUTH_RESPONSE carrying a fresh token. Refuted: the command is decoded and passed to the clients on that broker, none of which reads it; no execution whatever answers it, and the state is indistinguishable for ever from the one in which it was not sent.", "quantifier": "every execution, every broker and every authentication challenge read from it", "why_tests_cant": "it is about all continuations; a test sees only that no answer came within some time", "anchors": ["src/message.rs: AuthChallengeRequest, Inbound::try_from", "src/pulsar.rs: next", "src/consumer.rs: next_message"]}
{"id": "C154", "title": "A ping has one effect and no other: a pong on the same connection", "statement": "When the engine handles a PING read from a connection that is still alive, the state reached and the state in which the PING had not come but that connection had been handed one PONG to write behave alike for ever: no call, consumer, request, other connection or later behaviour can tell them apart (a bisimulation over the whole application with its engine, connections and consumer).", "quantifier": "every execution, every point of it, every connection and every ping on it, and every continuation", "why_tests_cant": "it compares all continuations of two states of the whole system; a test compares one continuation", "anchors": ["src/pulsar.rs: handle_connection_inbound", "src/connection.rs: start_connection", "src/connection_manager.rs: send"]}
{"id": "C155", "title": "Messages are read and written as the .proto file defines them, all of it", "statement": "For every message type of pulsar.proto and every byte string: the library reads the bytes as a message exactly if they encode that message by the definition in the .proto file (field numbers, labels and types as written there, nested to the depth limit) and everything required is present; whatever it reads conforms to the definition at every depth (required fields set, at most one value for a field that is not repeated, every value within its declared type); and every message that conforms can be written and is read back unchanged.", "quantifier": "all message types, all byte strings, all messages", "why_tests_cant": "all byte strings and all messages of all types; tests try a few", "anchors": ["src/protos/pulsar.proto", "src/codec.rs: decode, encode", "build.rs"]}
{"id": "C156", "title": "However TCP cuts the bytes, the application cannot tell", "statement": "Take any state of an application with its instance and let the same bytes arrive on a broker's socket in two ways, cut into any two lists of pieces (garbage and half frames included). The two states reached go the same way for ever: every action possible in one (engine steps, reads, writes, calls of the application, further arrivals, ends and errors of the socket) is possible in the other, and after every number of steps everything but what waits to be read is equal: calls and results, messages handed out, frames read so far, requests, connections, bytes written.", "quantifier": "every state, every broker, every byte string, every two ways of cutting it, and every continuation of any length", "why_tests_cant": "all cuts of all byte strings, in all states and with all continuations; a test tries a few cuts of a few frames", "anchors": ["src/connection.rs: start_connection, ConnectionStream::next", "src/codec.rs: decode", "src/pulsar.rs: next", "src/client.rs", "src/consumer.rs"]}
{"id": "C157", "title": "Messages for other consumers do not affect this one", "statement": "A message the broker sends to another consumer of the same instance (another consumer id, or a connection this consumer is not on) has no effect on this consumer or on any call in progress, of whichever client: once the engine has handled it, what this consumer has queued and receives, the results of all calls, what is registered and what is written to every socket can develop exactly as if the message had not been sent, and only so. Only the other consumer's own channel differs, and whether the other consumer ever takes what is queued there cannot be told either. The same holds of any number of such messages handled one after the other.", "quantifier": "every reachable state of an application with any number of consumers, producers and calls, every such message at the head of any connection's channel, and every continuation", "why_tests_cant": "a test can send a message to one consumer and see another receive nothing; it cannot compare all continuations of the application with all continuations of the one without the message", "anchors": ["src/client_manager.rs: ClientManager::send", "src/pulsar.rs: handle_connection_inbound", "src/message.rs: Inbound::try_consumer_or_producer_id"]}

# Formal model of klaatu01/neutron in Lean 4 - design

The first version of this file was committed before the proofs; this one describes the model as it is.

## What is proved and how to read it

* `properties.jsonl` lists the properties in English, `MANIFEST.json` maps each to theorems and a status, `lean/Verif/Props/*.lean`
  holds those theorems, each followed by a concrete case meeting its hypotheses.
* Statements use only `lean/Verif/Spec/*.lean` (small specifications written independently of how the model computes), the
  state and actions of the model, and API-level types. `lean/Verif/Proof/*.lean` holds lemmas and invariants nobody needs to read to
  understand a statement.
* Status *proved*: the theorems say what the English says, for all inputs and executions of the model. Status *partial*: the property as
  a user would expect it is false of the code; `..._refuted` theorems prove that (concrete run, usually also for all continuations) and
  the true core is proved, usually as a property of its own (C72-C96). Names ending in `_partial` prove part of a property.
* All theorems quantify over unbounded inputs, histories and schedules. Proofs are inductions and invariants, nothing is
  enumerated; `decide` and `rfl` are used on concrete witnesses and on the finite schema only.

## Trusted base

* Lean 4.33.0's kernel. Axioms used by the theorems: at most `propext`, `Classical.choice`, `Quot.sound`. No axioms of our own, no
  compiled evaluation.
* The reading of `/repo` in `lean/Verif/Model/*.lean`: every definition cites file and lines, simplifications are noted there and below.
  `Model/ProtoSchema.lean` is a transcription of `src/protos/pulsar.proto` (generated from it, line numbers in comments).
* The behaviour of dependencies that are not in `/repo`, modelled from their documentation and sources as remembered (no network):
  rust-protobuf 3 (wire format, unknown fields, required-field check on write and parse, recursion limit 100), nom 7 *streaming* number
  parsers and `count`, tokio-util `Framed` (read loop, `decode_eof` default, write buffer with 8 KiB back-pressure boundary), async-channel (unbounded
  FIFO; `send` fails when all receivers are gone; `recv` drains, then fails), futures `oneshot`, `select_all`, `join_all`, `Mutex` (one holder,
  released on drop), `tokio::select!` (any ready branch), `chrono`, `url`, `rustls`, `reqwest`.
  What `url`, DNS, TLS, TCP, the OAuth2 endpoint, the clock and brokers return is arbitrary: an argument of an action, universally quantified.

## Layers of the model (`lean/Verif/Model`)

| module | models | of |
|---|---|---|
| `Basic` | `NeutronError`, `Outcome` = ok / err / panic, byte helpers | error.rs |
| `Addr` | broker addresses, `PulsarConfig` | broker_address.rs, pulsar.rs |
| `ProtoTypes`, `ProtoWire`, `ProtoSchema` | protobuf messages as field lists, wire format, the message types | protos/ |
| `Crc` | CRC-32C | codec.rs (crate crc32c) |
| `Codec`, `Framed` | frame encoder/decoder; read loop; `ConnectionStream::next` | codec.rs, connection.rs |
| `Message` | `Outbound`/`Inbound`, both conversions, batch format, resolver keys | message.rs, command_resolver.rs |
| `Client` | id counters, what each call issues and how it reads its response | client.rs |
| `Connect`, `Auth` | decisions of `PulsarConnection::connect`; the authentication trait, the OAuth2 plugin and its token cache | connection.rs, auth.rs |
| `Sys` | connection tasks, connection manager, client manager, resolver, engine loop, clients' channels: one transition system `step`, a schedule is any list of actions | connection.rs, connection_manager.rs, client_manager.rs, engine.rs, pulsar.rs, client.rs |
| `Session` | the multi-step calls (`connect`, registration, `send_all`, `ack_all`, ...) as programs over `Sys` | producer.rs, consumer.rs, client.rs |
| `Consumer` | `next_message`, `next_batch`, `consume`, permits, plugins: step-by-step code, concurrent and cancellable tasks | consumer.rs |
| `World` | sockets (bytes in, bytes out, partial and failed writes) + `Sys` + `Consumer` in one transition system | all of the above, composed |

| `App` | the application's calls (`connect` of both builders, any sequence of calls in a task, concurrent tasks, cancellation) driving `World`: the responses a call gets are those of the engine | all of the above, composed |

In `App` a call that hands over a command first makes it (taking its numbers from the client's counters) and puts it in the channel in a later step, so
that calls of several tasks on one client interleave as the code does. `Start.call i p` allows any program `p` over the client's calls, more than the
library offers. The plugins and deserialiser of a consumer built in `App` are its parameters (`Unit` here); the receiving calls are those of `World`.

Ghost state (histories such as `issued`, `sent`, `processed`, `written`, `dispatches`, `outcomes`, the `answers` tag on broker responses)
is only ever appended to and never read by a transition.

## Simplifications

* Sending to and receiving from a channel and the code between two `.await`s are atomic; between them everything interleaves.
  The engine's handling of one event (awaiting credentials and dialling included) takes effect in one step, when those awaits are over: nothing
  else reads the engine's state meanwhile. `World` records that it has begun (`serving`): until that step the engine does nothing else.
  Waiting for the answer to a `CONNECT` is a mode of its own, because it may last for ever.
* A connection task inside `stream.send(..).await` neither reads nor takes commands; `World` records this (`held`), and counts the bytes the
  socket took meanwhile when the write ends. In `Sys`, below the sockets, both are a matter of when the steps happen.
* The mutexes of pulsar.rs and command_resolver.rs are locked only by the one task that owns them, so they are never contended; the
  consumer's mutexes (receiver, permits) are contended by concurrent calls and are modelled explicitly.
* The engine is one task; which ready branch of `select!`/`select_all` runs is an arbitrary choice of the schedule.
* The permit counter is loaded with `Relaxed` ordering; a load in the model returns the latest value (a stale one is possible only between
  concurrent calls on different threads).
* Protobuf groups (wire types 3/4) are rejected by the model's parser; rust-protobuf skips some of them. No message of `pulsar.proto` has any.
* `usize` is 64 bits. Some theorems assume fewer than 2^64 clients or sends; this is then a visible hypothesis.
* Timestamps are an argument (`now`) of the write; nothing assumes monotony.
* Memory is unbounded, allocation never fails.

## Not modelled

* `combinators.rs` (unused by the crate), logging, `Display`/`Debug` texts except where they are resolver keys, the
  plugin callbacks that are never called by the code, the benches, and the examples (but C147 is about the plugin of `examples/consumer_plugins.rs`).
* The bytes of TLS and TCP below the sockets; timing; that the runtime (tokio) is fair is not modelled but assumed where it matters: C143 to C151 have the fairness they need as hypotheses (`Spec/Forever.lean`, `Spec/Returns.lean`, `Spec/ConsumerForever.lean`, `Spec/ReceiveForever.lean`, `Spec/Carried.lean`, `Spec/AutoAck.lean`, `Spec/Supply.lean`, `Spec/Relays.lean`), everything else is safety or "can always continue".

## Findings (behaviour of the code a user would not expect, each a theorem)

* The checksum is never compared (C06); malformed frames panic the connection task (C07/C72); commands lacking required parts panic it (C74).
* Responses are matched by kind, not by request id: concurrent lookups, registrations, acks of one instance and sends of several producers
  steal or cancel each other's responses (C21-C23).
* Broker `ERROR`/`SEND_ERROR` replies are dropped, the caller waits (C35); a rejected or lost `CONNECT` blocks the whole engine (C36, C98).
* A send handed over just before the engine stops waits for ever (C32); dropping one client can stop the engine for all (C33).
* Redirects are ignored or panic (C38, C39); `ack` ignores the error in the response (C96); `send_all` and `ack_all` never report failures (C46, C47).
* `next_batch` reverses and drops batch elements (C52), loses messages on cancellation (C53), waits with messages in hand (C141); a batch counts as one permit and can starve the
  consumer (C55); permits are granted twice or lost under concurrency (C57); one-element batches do not round-trip (C12).
* An undecodable element of a batch panics the call (C58). A plugin that calls `consume` on the consumer it is given deadlocks (C137).
* Two consumers of one instance, each with the auto-ack plugin: if both acknowledge at the same time, the first one's `ack` fails, its plugin returns the error and its `consume` ends, in a healthy instance (C150; C118 is the cause). It cannot happen when `ack` is called in turn.
* An authentication challenge of the broker (sent when a token expires) is never answered and has no effect at all (C153).
* Acknowledging one message of a batch acknowledges the whole batch: the ACK carries no `ack_set` (C139).
* A `connect` that fails drops its client, and the engine then stops for every other client of the instance (C116); a cancelled receiving
  call loses the message its plugins were looking at (C115).
* A connection whose socket takes no more bytes does not read either: a broker that stops reading until it is read from blocks it for
  ever (C130). While the engine authenticates or dials for one client, with no time limit, it serves no other (C131).

## Testing the theorems

`seeded/LOG.jsonl` lists deliberate bugs put into a copy of the model (wrong boundaries, missed cases, swapped arguments, dropped updates) with
the theorems that stopped proving. Survivors led to new or tighter theorems (C69; C97/C99; C33, C36, C43 ...).

## Properties (157): what is modelled, how it is proved

| id | property | model and method | status |
|---|---|---|---|
| C01 | Wire frames round-trip | `Codec.encode`/`decode` as functions on byte lists; the encoder is shown to produce `Frame.layout` (the protocol's framing, written down separately), the parser is computed on that layout | proved |
| C02 | Frame reassembly is independent of how the socket chunks bytes | tokio-util's read loop as a state machine over arbitrary reads and polls; induction with the invariant that buffer plus unread bytes is the rest of the frame stream | proved |
| C03 | An incomplete frame is never consumed | `Codec.decode` on every strict prefix of a layout returns 'need more' | proved |
| C04 | Frame layout and length fields are exact | `Codec.encode`/`decode` as functions on byte lists; the encoder is shown to produce `Frame.layout` (the protocol's framing, written down separately), the parser is computed on that layout | proved |
| C05 | The payload checksum is a CRC-32C over metadata size, metadata and payload and reveals corruption | bitwise CRC; equality with remainder of polynomial division over GF(2) (RFC 3720, `Spec/Crc.lean`), injectivity of the step, burst detection | proved |
| C06 | Corrupted payloads are not delivered | refutation by a concrete corrupted frame that decodes; `_partial`: what comparing the checksum would detect | partial |
| C07 | Garbage from the network cannot crash a connection | the decoder panics exactly on blocks whose contents are not `Framed.Readable`; refutation by a concrete frame | partial |
| C08 | Oversized messages are never mis-framed | 32-bit casts modelled with and without overflow checks; exact behaviour below and above 2^32 | partial |
| C09 | Protobuf bodies survive serialisation | schema-driven protobuf encoder/decoder; round trip for every schema by induction on nesting depth; `pulsar.proto` checked against the side conditions | proved |
| C10 | Sending a command never panics in the encoder | every conversion to protobuf yields a serialisable message; explicit bound on frame sizes | proved |
| C11 | Batches of two or more messages round-trip | batch format; induction on the payloads; composition with C01/C09; exact characterisation of which batch sizes round-trip | proved |
| C12 | Batches of any size round-trip | batch format; induction on the payloads; composition with C01/C09; exact characterisation of which batch sizes round-trip | partial |
| C13 | Batch parsing is total and exact | batch format; induction on the payloads; composition with C01/C09; exact characterisation of which batch sizes round-trip | proved |
| C14 | Single messages round-trip byte for byte | batch format; induction on the payloads; composition with C01/C09; exact characterisation of which batch sizes round-trip | proved |
| C15 | API calls put the requested command on the wire | conversion of each API call computed symbolically, then read back through C01/C09 and compared, field by field, with `Call.wire` | proved |
| C16 | An acknowledgement names exactly the message received | conversion of each API call computed symbolically, then read back through C01/C09 and compared, field by field, with `Call.wire` | proved |
| C17 | Broker commands are classified correctly | case analysis over command type and presence of sub-messages against `Denotes`; refutation by concrete commands | proved |
| C18 | Every request completes at most once and is never duplicated or forgotten | invariant: every request is in exactly one of channel / resolver / outcomes (counting), over arbitrary actions of `Model/Sys.lean` | proved |
| C19 | A completed request got a response of its own kind | invariant linking resolver entries, outcomes and reads; decimal key rendering shown injective | proved |
| C20 | Successful completions come from the broker | invariant linking resolver entries, outcomes and reads; decimal key rendering shown injective | proved |
| C21 | Concurrent requests each receive their own response | ghost tags say which request a response is meant for; invariant over honest runs (`Spec/Honest.lean`) that the resolver entry for a key is the one outstanding request; refutations by concrete runs | partial |
| C22 | Concurrent acknowledgements all succeed | ghost tags say which request a response is meant for; invariant over honest runs (`Spec/Honest.lean`) that the resolver entry for a key is the one outstanding request; refutations by concrete runs | partial |
| C23 | Producers sharing one Pulsar instance do not interfere | ghost tags say which request a response is meant for; invariant over honest runs (`Spec/Honest.lean`) that the resolver entry for a key is the one outstanding request; refutations by concrete runs | partial |
| C24 | Received messages are never mistaken for responses | invariants: log of dispatches, per-client inboxes, per-connection reads; stream equality by induction over the run | proved |
| C25 | A consumer gets every message the broker sends it, once and in order | invariants: log of dispatches, per-client inboxes, per-connection reads; stream equality by induction over the run | proved |
| C26 | Messages and receipts are delivered only to the client they are addressed to | invariants: log of dispatches, per-client inboxes, per-connection reads; stream equality by induction over the run | proved |
| C27 | A client's commands reach its broker in the order issued | invariant: what was passed on is the routing (`routeAll`) of what was handed over; per-connection FIFO; pongs counted against pings | proved |
| C28 | Every broker ping is answered on the same connection | invariant: what was passed on is the routing (`routeAll`) of what was handed over; per-connection FIFO; pongs counted against pings | proved |
| C29 | Client ids are unique | invariants on the id counters and the log of issued commands | proved |
| C30 | Every connect carries the configured credentials | every `CONNECT` passed on carries the answer the plugin gave for it | proved |
| C31 | After the engine stops, calls fail instead of blocking | terminal mode of the engine; every action on it computed; which requests can be left waiting; refutation by a concrete run | proved |
| C32 | No request hangs after the engine stops | terminal mode of the engine; every action on it computed; which requests can be left waiting; refutation by a concrete run | partial |
| C33 | Dropping one client does not disturb the others | a drop changes only the dropped client; exactly when the engine keeps serving; refutation: leftover drops stop it | partial |
| C34 | Losing a broker connection is detected | dead connections stay dead and are seen by the engine; refutation: a ping behind the close | proved |
| C35 | Broker error replies reach the caller | broker errors are not converted to events: refutation over all continuations and a concrete run | partial |
| C36 | A rejected connect does not block other clients | broker errors are not converted to events: refutation over all continuations and a concrete run | partial |
| C37 | Proxied topics are reached through the proxy | invariant: what was passed on is the routing (`routeAll`) of what was handed over; per-connection FIFO; pongs counted against pings | proved |
| C38 | A lookup naming another broker is honoured | the client programs (`connect`, `connect_to_topic`, `register`) as trees of calls, run against every answer (`Model/Session.lean`) | partial |
| C39 | Lookup failures surface | the client programs (`connect`, `connect_to_topic`, `register`) as trees of calls, run against every answer (`Model/Session.lean`) | partial |
| C40 | Creating a client follows the handshake order and stops at the first failure | the client programs (`connect`, `connect_to_topic`, `register`) as trees of calls, run against every answer (`Model/Session.lean`) | proved |
| C41 | Every client is eventually served | fairness: the scheduler may ignore a client for ever (refutation: for every n a run); its command stays servable (proved) | partial |
| C42 | The engine itself never panics | exactly which actions make the engine panic | partial |
| C43 | Registration completes before the client is used | the registration handshake; refutations: creation returns before the engine registered the client | partial |
| C44 | Producer sequence ids are consecutive | invariants on the id counters and the log of issued commands | proved |
| C45 | send and send_batch report the broker's receipt | `send`, `send_batch`, `send_all`, `ack`, `ack_all` as programs over the running system; results computed from outcomes | proved |
| C46 | send_all reports failures | `send`, `send_batch`, `send_all`, `ack`, `ack_all` as programs over the running system; results computed from outcomes | partial |
| C47 | ack_all acknowledges everything and reports failures | `send`, `send_batch`, `send_all`, `ack`, `ack_all` as programs over the running system; results computed from outcomes | partial |
| C48 | next_message hands out each message exactly once in order | consumer calls as step-by-step code over shared state with any number of concurrent, cancellable tasks; a logic over code (`Sound`/`Follows`) shows every handed-out item is the next of the stream | proved |
| C49 | Concurrent next_message calls are serialisable | consumer calls as step-by-step code over shared state with any number of concurrent, cancellable tasks; a logic over code (`Sound`/`Follows`) shows every handed-out item is the next of the stream | proved |
| C50 | next_message is cancellation safe | consumer calls as step-by-step code over shared state with any number of concurrent, cancellable tasks; a logic over code (`Sound`/`Follows`) shows every handed-out item is the next of the stream | proved |
| C51 | next_batch respects its bound | consumer calls as step-by-step code over shared state with any number of concurrent, cancellable tasks; a logic over code (`Sound`/`Follows`) shows every handed-out item is the next of the stream | proved |
| C52 | next_batch neither loses nor reorders messages | refutations by concrete schedules; on unbatched streams exact for any mix of calls | partial |
| C53 | A failed or cancelled next_batch loses nothing | refutations by concrete schedules; on unbatched streams exact for any mix of calls | partial |
| C54 | Flow control never starves a consumer of single messages | permit accounting invariants over the same consumer model; refutations by concrete schedules | proved |
| C55 | Flow control never starves a consumer of batched messages | permit accounting invariants over the same consumer model; refutations by concrete schedules | partial |
| C56 | Prefetch is bounded | permit accounting invariants over the same consumer model; refutations by concrete schedules | partial |
| C57 | Permit accounting is exact under concurrency | permit accounting invariants over the same consumer model; refutations by concrete schedules | partial |
| C58 | Undecodable messages surface as errors | error values in place of undecodable messages; refutations for permits and batches | partial |
| C59 | Plugins see every message once, in order | `consume` with a list of plugins, any behaviour of each; offers and stop condition by induction on the stream | proved |
| C60 | Batch elements get distinct, index-correct ack ids | functions on ids and strings against field-wise specifications | proved |
| C61 | OAuth2 tokens are cached until they expire and never served stale | token cache as a state machine over any clock and any answers of the endpoint | proved |
| C62 | The broker name sent to a proxy carries no pulsar:// scheme | functions on ids and strings against field-wise specifications | proved |
| C63 | TLS is used exactly for pulsar+ssl:// endpoints | decision logic of `PulsarConnection::connect` for every address string, and what `url` may return | proved |
| C64 | Message ids obey the Eq/Hash contract | functions on ids and strings against field-wise specifications | proved |
| C65 | Queued commands are flushed on shutdown | shutdown drains (`start_connection` after the channel closes); refutation: `select!` may end before | partial |
| C66 | Truncated streams end in an error then a disconnect | tokio-util's read loop as a state machine over arbitrary reads and polls; induction with the invariant that buffer plus unread bytes is the rest of the frame stream | proved |
| C67 | The id in an acknowledgement is the broker's, field by field | conversion of each API call computed symbolically, then read back through C01/C09 and compared, field by field, with `Call.wire` | proved |
| C68 | Connection sharing: one connection per broker address | invariant: one connection per address, opened only by the engine's dial | proved |
| C69 | ack reports the broker's answer | `send`, `send_batch`, `send_all`, `ack`, `ack_all` as programs over the running system; results computed from outcomes | proved |
| C70 | From the bytes on a socket to the application | `Model/World.lean`: bytes -> frames -> connection -> engine -> consumer -> application in one run; projection to the parts, then C02/C25/C48 | proved |
| C71 | What reaches the broker's socket is whole commands in order | the write side of `Framed` with partial and failed writes, composed with C27 | proved |
| C72 | Only malformed frames crash a connection | the decoder panics exactly on blocks whose contents are not `Framed.Readable`; refutation by a concrete frame | proved |
| C73 | Frames below 2^32 bytes are always right, and what happens above | 32-bit casts modelled with and without overflow checks; exact behaviour below and above 2^32 | proved |
| C74 | No broker command that parses crashes the connection | case analysis over command type and presence of sub-messages against `Denotes`; refutation by concrete commands | partial |
| C75 | Requests with different keys each receive their own response | ghost tags say which request a response is meant for; invariant over honest runs (`Spec/Honest.lean`) that the resolver entry for a key is the one outstanding request; refutations by concrete runs | proved |
| C76 | One acknowledgement at a time always succeeds | ghost tags say which request a response is meant for; invariant over honest runs (`Spec/Honest.lean`) that the resolver entry for a key is the one outstanding request; refutations by concrete runs | proved |
| C77 | A producer's sends get their own receipts unless another producer uses the same sequence id | ghost tags say which request a response is meant for; invariant over honest runs (`Spec/Honest.lean`) that the resolver entry for a key is the one outstanding request; refutations by concrete runs | proved |
| C78 | Only requests the engine never took can hang after it stops | terminal mode of the engine; every action on it computed; which requests can be left waiting; refutation by a concrete run | proved |
| C79 | Dropping a client touches nothing else by itself | a drop changes only the dropped client; exactly when the engine keeps serving; refutation: leftover drops stop it | proved |
| C80 | Everything received before a connection closed is processed | dead connections stay dead and are seen by the engine; refutation: a ping behind the close | partial |
| C81 | Where a registration goes after lookup | the client programs (`connect`, `connect_to_topic`, `register`) as trees of calls, run against every answer (`Model/Session.lean`) | proved |
| C82 | A failed first lookup surfaces | the client programs (`connect`, `connect_to_topic`, `register`) as trees of calls, run against every answer (`Model/Session.lean`) | proved |
| C83 | A queued command stays servable | fairness: the scheduler may ignore a client for ever (refutation: for every n a run); its command stays servable (proved) | proved |
| C84 | The engine panics only where the outside world makes it | exactly which actions make the engine panic | proved |
| C85 | Registration is at least queued when creation returns | the registration handshake; refutations: creation returns before the engine registered the client | proved |
| C86 | send_all hands every message over once, in order | `send`, `send_batch`, `send_all`, `ack`, `ack_all` as programs over the running system; results computed from outcomes | proved |
| C87 | ack_all sends one acknowledgement per message, in order | `send`, `send_batch`, `send_all`, `ack`, `ack_all` as programs over the running system; results computed from outcomes | proved |
| C88 | Any mix of next_batch and next_message is exact on unbatched streams and never duplicates | refutations by concrete schedules; on unbatched streams exact for any mix of calls | proved |
| C89 | A failed or cancelled next_batch loses nothing of an unbatched stream | refutations by concrete schedules; on unbatched streams exact for any mix of calls | proved |
| C90 | Bounds under which batches do not starve a consumer | permit accounting invariants over the same consumer model; refutations by concrete schedules | proved |
| C91 | Prefetch grows by at most one per message | permit accounting invariants over the same consumer model; refutations by concrete schedules | proved |
| C92 | Permit accounting is exact for calls that do not overlap | permit accounting invariants over the same consumer model; refutations by concrete schedules | proved |
| C93 | Undecodable single messages surface in their place | error values in place of undecodable messages; refutations for permits and batches | proved |
| C94 | Unusable addresses are reported as errors | decision logic of `PulsarConnection::connect` for every address string, and what `url` may return | partial |
| C95 | Queued commands are flushed on shutdown unless more arrives | shutdown drains (`start_connection` after the channel closes); refutation: `select!` may end before | proved |
| C96 | ack reports rejections | `send`, `send_batch`, `send_all`, `ack`, `ack_all` as programs over the running system; results computed from outcomes | partial |
| C97 | The engine stops only for a reason | every transition into the stopped mode / a dead connection classified (`Spec/Lifetime.lean`); refutation of C98 over all continuations | proved |
| C98 | Losing a broker connection never leaves the instance hanging | every transition into the stopped mode / a dead connection classified (`Spec/Lifetime.lean`); refutation of C98 over all continuations | partial |
| C99 | A connection ends only for a reason | every transition into the stopped mode / a dead connection classified (`Spec/Lifetime.lean`); refutation of C98 over all continuations | proved |
| C100 | A confirmed send has arrived, whole and once | `Model/World.lean` plus brokers that confirm only what they received, stated on bytes; unique decoding of the byte stream, C44 uniqueness, each request passed on once | proved |
| C101 | An idle instance rests | `Sys`; counterexample run, and a lemma that the engine is never blocked once the manager is gone | partial |
| C102 | The engine works only on what it is given | `Sys`; potential function (queued work + mode) decreasing with every engine step, over all runs, stated on action counts | proved |
| C103 | Dropping everything closes everything | `Sys`; counterexample run (everything dropped during a rejected CONNECT) | partial |
| C104 | Dropped instances wind down unless a CONNECT is unanswered | `Sys`; progress in every reachable state with everything dropped, and the bound of C102 | proved |
| C105 | The value sent is the value received, from the producer's call to the consumer's | two copies of `World` joined by the relation `Relayed` (Spec/Relay.lean) between the frames on the two sockets; induction over the relation, C71/C100's lemmas on the producer's side, C70 on the consumer's | proved |
| C106 | Builders use the value given last, and check for missing values first | `Builder`: setters and `connect`/`build` as programs; the setter calls are a list (Spec/Builder.lean), induction over it from the back; steps of `connect` against the relation `SetsUp` | proved |
| C107 | A value that cannot be serialised is reported as an error, and nothing of it is sent | `Session` with an arbitrary partial serialiser; case analysis of the programs; counterexamples for `send_batch` and `send_all` | partial |
| C108 | Unreadable data costs its connection, at the next poll, and nothing before | `Framed` + `World`; invariant on what a read side has produced, lifted to the connection | proved |
| C109 | Any conforming protobuf encoding is read as what it says | `Spec/ProtoFormat.lean` defines `Encodes` inductively (digits of a varint, tags, the four wire types, packed lists, two's complement per kind, last value of a singular field wins). `Proof/ProtoFormat.lean` proves the parser equivalent to it layer by layer (varint, field, list of fields, one column of the message per declared field using distinct field numbers, nesting by induction on depth). `IsFrame` in `Spec/Stream.lean` is built on it, so every theorem about received streams holds for any encoding a broker may choose. | proved |
| C110 | A request is held up only by what is ahead of it | `Sys`; per-step lemmas on each channel's history (what went in, what came out), induction over the continuation, counting services | proved |
| C111 | An answered request completes | `Sys`; a taken request is pending under its key or complete (invariant), a pending one stays so or completes (every step), the answer's position in the channel goes down with every service | proved |
| C112 | A client waits only for clients registered before it | `Sys` restricted to `InOrder` continuations; a potential (commands served of the earlier clients and of the client itself) goes up with every service while the command waits | proved |
| C113 | A successful connect means a broker accepted the client | `App`; a job keeps its program and trace (invariant `Kind`: the trace is a run of the builder's program against the engine's outcomes), an owning job is alone on its client until it returns (`Own`), so its trace is a prefix of the client's submitted commands; outcomes come from polls (C20, C75 machinery) | proved |
| C114 | With the OAuth2 plugin every CONNECT carries a valid token | `Sys` and `Auth` composed: a run of `Sys` in which each answer the engine gets when it takes a CONNECT is that of the next call of the plugin model; C30 and C61 combined by induction over the run | proved |
| C115 | A dropped consume loses no message | `Consumer`; counterexample traces; the true part from the C59 invariant | partial |
| C116 | A failed connect does not disturb the other clients | `App`; every owning job that returned something other than `Ok(())` has dropped its client (invariant `Failed`), then the engine's step on a dropped client (C33); a concrete execution from `new` on refutes the claim | partial |
| C117 | What a successful send, send_batch or ack means to the application | `App`; `Kind` gives the call's trace, `one_call` its single request, outcomes come from polls (C20/C71/C100 machinery); the received form composes with C100 over the byte model | proved |
| C118 | A send or ack fails only for one of the known reasons | `App`/`Sys`; invariant: a request whose outcome is `cancelled` while the engine runs was displaced by another request with the same key that was outstanding at the same moment (`Sys.cancelled_step`, from the resolver's put; `World.Together`); keys of SENDs are their sequence ids (C44: one client does not repeat one) | proved |
| C119 | What an application does one after the other stays in order | `App`; invariant `InOrder` (a call's requests are a sublist of its client's submitted requests), `later` (calls made later have later requests), then C44 for sequence ids and `received_of`/`part_in_order` for the bytes | proved |
| C120 | A call is held up only by what it waits for | Model `App`. Invariant `Live` over all runs: the commands clients have made and not handed over are exactly those of calls about to hand over (by count per request), the manager is there while a connect is in progress, and the phase of a client fits the call that uses it. Then case analysis on the call's program (`C120_progress`, an equivalence), induction on the program (`C120_returns`), and the drop step (`C120_can_drop`). | proved |
| C121 | Nothing is sent that the application did not ask for, and nothing twice | Invariant over runs of the application layer (Proof/AppAsked.lean): every command in a client's channel with a request belongs to an accepted hand-over of some call on that client, and every one without is a FLOW. With the one-to-one passing of requests to connections (SysOnce) and the frame analysis of what each socket accepted (WorldLog) this gives the attribution on the wire (Props/AppAsked.lean). Examples: a producer that sent, a consumer that acknowledged, with everything written to the broker. | proved |
| C122 | The OAuth2 token request carries the configured credentials, exactly | Model `TokenRequest` (URL and form body of `request_new_token`, with `form_urlencoded`'s escaping); the specification is the URL standard's form parser, written separately (`Spec/Form.lean`); induction over the fields and the bytes of each value. | proved |
| C123 | A client closed by the broker is told | `World`: reading the notice leaves everything but the socket as it was (instance of C124); a run in which the consumer then waits and nothing in the instance has a step. | partial |
| C124 | Commands the client does not understand have no effect | `World`: the poll step with a command outside `supportedTypes`, by C17 and the invariant that the consumer's view of its channel is the engine's (`Proj`). | proved |
| C125 | An error's text says which error it is | Model `ErrorText`; case analysis: the first three characters tell the error, what follows a fixed prefix tells the details. | proved |
| C126 | A response that has arrived reaches the call that waits for it | `World`/`App`: the read side keeps the frames that are available at its front (`Front`), so each poll yields the next one; then C111 on the engine's channel; then C120. For a Connect, the engine does nothing else while it waits (`awaiting_step`), and the invariants of C98. | proved |
| C127 | What a client hands over reaches its broker | `Verif/Props/Reach.lean`: `C110_client` gives that the engine passes the command on; `writes_all` (induction over the run) that every write to a connection that stays up writes the next command; the FIFO invariant that the command is among them; `left` and the frame lemmas that what is reported written is whole frames the socket has accepted. Spec: `Spec/Reach.lean`, `Spec/Received.lean`. Instance: `Props/ReachExample.lean`. | proved |
| C128 | A send, send_batch or ack whose response arrives returns Ok | `Within` (Proof/AppWithin.lean): what a call did leads from its program to where it is; `one_returns`: once its request is completed, a call of one command ends in two steps; combined with C126 (the response is read and handled) and C118 (why a call can fail). | proved |
| C129 | A waiting consumer's broker still holds permits it has not used, counted on the wire | invariant over App.Run: once connect's own FLOW is handed over, the permits granted (n :: later grants) are a sublist of the FLOWs the client submitted (Gave per world step; connect's FLOW is handed over while no receiving call exists); submitted = passed on = written (Cmd, writes_all, Left) gives frames on the wire; C54 on the projected consumer run (proj_atMost) bounds what was delivered, `reached`/`read_all` identify that with what the broker sent | proved |
| C130 | A connection keeps reading while a write is held up | `World.held`: set by the action `hold` (the socket takes nothing more), cleared by the write's end; `held_step`, `held_busy` (invariant: a held-up connection runs and has something to write), then induction over the continuation. Refutation: a concrete run with a message in the socket. | partial |
| C131 | A slow authentication or connection attempt of one client does not hold up the others | `World.serving`: set by `serve`, cleared by the engine's step for that client; `idle_step` (what steps that are not the engine's leave unchanged), `serving` (invariant), then induction over the continuation. Refutation: two clients, one being dialled for. | partial |
| C132 | A connect fails only for one of the known reasons | `App`; Proof/AppSolo.lean: a `connect` hands over one command at a time and waits for each (`Sequential`), so its client never has two requests outstanding; the result of the set-up script (C40) says which response or refusal the outcome comes from; C118_request says why a request was cancelled, C20 where a lookup response came from. | proved |
| C133 | A connect whose responses arrive returns Ok | `App`; Proof/AppConnect.lean: where in its program a `connect` is after what it did (`Within`), and `WillOk`: a place from which it ends well in n own steps when the responses it waits for are there; C126 (the response reaches the engine), C118_request (why a request is cancelled) and C19 (a response resolves) do the rest; C40 bounds the requests. | proved |
| C134 | A request id identifies a request on its connection | `World`; the frames on the sockets are the encodings of commands connections took (received_of), each client command is handed to at most one connection once (SysOnce), and a client's request ids count up (C44): `one_frame`, shared with C100. Refutation: a concrete run of two consumers. | partial |
| C135 | A producer or consumer stays on one connection | Model/App (Props/OnePlace, Proof/AppPlace): by induction over the run, what a client puts in its channel settles: after the first command other than connect and lookup there is no connect. For a connect in progress this is its script (C40) together with the exclusive use of its client (Proof/AppOwn); later calls and the consumer's permits hand over no connect. A settled list of commands is routed to one connection after its last move, and a whole frame on a socket is a command the engine passed on to that connection (Proof/WorldLog). | proved |
| C136 | A consumer's messages are one broker's | Model/App (Props/OneStream): by induction over the run, either nothing but connects and lookups has been passed on for the consumer, and nothing has been read for it (a broker that delivers has received its SUBSCRIBE, which was passed on), or it has been attached to one connection since before anything was read for it: the engine's record of where a client is follows its last move (`lastHop`), and after the first other command there is none (C135). Then C70 applies. What a dropped consumer handed out it had handed out before (`before_drop`). | proved |
| C137 | A plugin may use the consumer it is given | Model/Consumer (Props/Reentrant): invariant: a call whose message is with a plugin holds the plugins; so until that plugin answers or the call is dropped, no step offers anything to a plugin and a call that waits for the plugins stays where it is (induction over the continuation). next_message: C48_next_is_returned. Refutation: a concrete run and, by the above, every continuation of it. | partial |
| C138 | Only messages the application was given are acknowledged | Model/App (Props/AtLeastOnce): C121 gives the call that asked for an ACK on the wire; results only grow, so what had been returned when the call was made still has been; C70/C48 give the broker's message behind a result. C138_calls: the scripts of ack, ack_all, send, send_batch, send_all (C107). | proved |
| C139 | Acknowledging one message of a batch acknowledges only that message | Props/BatchAck: C67 (the id on the wire is the message's), C60 (withBatchIndex changes field 4 only), and the meaning of an ACK in Spec/AckMeaning. Refutation: a batch of two, end to end from the broker's bytes to the ACK's bytes. | partial |
| C140 | next_batch used alone with room for whole batches loses nothing | Model/Consumer (Props/WholeBatches, Proof/ConsumerBatches): the stream invariant of C48 (Proof/ConsumerStream), now generic in what a message means, with `reverse of its parts` as meaning and an always empty buffer. C140_next_is_returned: the steps of one call from any such state. | proved |
| C141 | A receiving call does not wait while it has messages | Props/WholeBatches: a concrete run (Model/Consumer); the true parts are C48, C88, C140. | partial |
| C142 | A waiting receive returns when a message arrives, and fails when the engine is gone | Model/Consumer (Props/WholeBatches): wherever a call waits, the code after a message is straight (counts, fills the buffer, returns) and the code after the channel's end returns the error; an invariant of the code each job can get to (Proof/ConsumerSolo). | proved |
| C143 | Under a fair scheduler everything gets through | Model/Sys (Props/Forever, Spec/Forever): infinite sequences of states and actions; strong fairness per channel; the bounded-wait theorems C110-C112 turn 'served again and again' into 'through', by contradiction from what stays enabled while something waits. Props/ForeverExample: an infinite execution meeting all hypotheses at once, and one (C41) showing the assumption on earlier clients is needed. | proved |
| C144 | Under a fair scheduler every call returns | Model/App + Model/World + Model/Sys (Props/Returns, Proof/Returns, Spec/Returns): every action of the application is a round of Model/Sys actions, so C143 applies to the projection of an infinite execution; a call that is held up (C120: only by a response or the reply to its registration) is so only finitely long: the registration on the way is counted (Proof/SysWaiters) and taken, the awaited request is one of the call's own (Within, Sequential), handed over (C125), passed on and answered (C143); induction over the call's program. Props/ReturnsExample: an infinite execution meeting all hypotheses at once, with a connect and a send. | proved |
| C145 | Under a fair scheduler everything that arrives is handed out | Model/Consumer (Props/ReceiveForever, Proof/ConsumerForever, Spec/ConsumerForever): infinite sequences of states and actions; strong fairness per call; the holder of the buffer's mutex finishes once there is a message (its code after recv is straight), so the mutex is free again and again, so whoever waits gets it; progress by induction over the call's code. Props/ReceiveForeverAll: the projection of an infinite execution of Model/App to the consumer (Proof/ReceiveForever) is one of those, and C143 brings what is read to its channel. Props/ReceiveForeverExample and ReceiveForeverAllExample: infinite executions meeting all hypotheses. | proved |
| C146 | Under a fair scheduler what a call hands over reaches a broker | A client that has begun a call is registered or about to be (invariant); C143 gives that what it submits is passed on and written, C127's frame argument that what is written is received whole. For calls on a client: they come to a point where they wait or are over (C144's argument with no broker needed), and by then have handed over what the program hands over first (`HandsOver`, shown for the library's programs). | proved |
| C147 | With the auto-ack plugin every message is acknowledged | Model/App + Model/Consumer (Spec/AutoAck, Proof/AutoAck, Props/AutoAck): the plugin is described by what it does in an infinite execution (while a receiving call is inside it, it starts the program Session.ack with the message's id, awaits it, and returns its result); C144 makes that call return, so the plugin comes back; C145 brings every message read to the plugin; C146 carries the ACK to a broker; C135 says to which. Props/AutoAckExample: an infinite execution with one message, meeting all hypotheses (Props/SettledExample: infinite executions from finite ones that come to rest). | proved |
| C148 | A consumer whose broker serves its permits never runs dry | Model/App (Spec/Supply, Proof/Supply, Props/Supply): either the application is handed another message or, from some time on, a call waits on an empty channel for ever (C145's argument). In the latter case everything read has been received (C143) and handed out, and by C54's count (Proof/Supply: `more_granted`) more permits have been granted than messages taken; the FLOWs with those permits are handed over, written and received whole (C146's argument with the count of permits on the wire of C129: `eventually_given`), and the broker sends another message: contradiction. Props/SupplyExample: C147's infinite execution meets all hypotheses. | proved |
| C149 | What is sent is received: from a producer's send to the consumer's application | Two executions of Model/App (Spec/Relays, Props/PassedOn): every SEND of the producer on the wire comes from a call handed over by `send`/`send_all` (C121), so it is a single message with a decodable payload; what the consumer's connection reads relays a beginning of what the broker received (`PassesOn.faithful`), hence is single and decodable; C148 (with `PassesOn.delivers`) makes all of it handed out, C145's order lemma keeps the order; C146 carries the SEND to a broker and C135 says which. Props/PassedOnExample: two infinite executions meeting all hypotheses. | proved |
| C150 | Consumers with the auto-ack plugin do not disturb each other as long as acknowledgements are made in turn; otherwise they do | Model/App (Spec/Undisturbed, Proof/Owners, Props/Undisturbed): every request of the engine belongs to a call that started it (Proof/Owners), and acknowledgements only to calls of `ack`; a call of `ack` that has not ended is the only one (1). A request ends unanswered in a running engine only by being displaced (C118), which needs a second outstanding acknowledgement (2). Hence no plugin refuses, every step of a `consume` leads to a stage other than ended (3), and C147 applies (4). Props/UndisturbedExample: an infinite execution meeting (1), (3), (4), one in which the plugin refuses (2), and the run of two consumers that refutes the rest. | partial |
| C151 | What is sent is received and acknowledged: from a producer's send to the ACK at the broker | Two executions of Model/App (Spec/SentAndAcked, Props/SentAndAcked): everything the consumer receives was read on the connection of its SUBSCRIBE (C26, C135), where by PassesOn it is a relayed SEND of the producer, hence decodable; so C150 makes the consume go on for ever, C147 makes its plugins return, C148 makes it keep asking, C149 then hands everything out, and C150/C147 acknowledge it at that broker. Props/SentAndAckedExample: two infinite executions meeting all hypotheses. | proved |
| C152 | Responses nobody waits for have no effect: unasked, repeated or late ones | Model/App + Model/World + Model/Sys + Model/Consumer (Spec/Alike, Proof/Noise, Proof/NoiseWorld, Proof/NoiseApp, Props/Stray): the relation `equal but for events in the clients' channels that are no messages` is a bisimulation (an action on one side is matched by repetitions of it on the other, since next_message skips such events one by one); tryResolve finds no sender for a response that is not Awaited (the resolver's keys are those of outstanding requests, as in C09/C17), so handling it only adds such events. Props/StrayExample: a repeated SUCCESS while a consumer waits. | proved |
| C153 | An authentication challenge of the broker is answered | The same bisimulation: AUTH_CHALLENGE has the key of no request the library makes, so it is awaited by nobody (Props/Stray). Props/StrayExample: a challenge while a consumer waits. | partial |
| C154 | A ping has one effect and no other: a pong on the same connection | The bisimulation of C152 (Proof/Noise*, Props/Stray): handling a PING differs from having been handed a PONG only in the record of what the engine took. Props/StrayExample: a PING while a consumer waits. | proved |
| C155 | Messages are read and written as the .proto file defines them, all of it | Spec/Definition lists the .proto file with its names, independently of the schema of the model; Conforms says what a message of a type is. Props/Definition: the schema of the model is the one defined (all message types), C109's exact characterisation of what is read then is one by the definition; well-typedness and required fields, by induction on the depth, are Conforms; parse_write gives the way back. | proved |
| C156 | However TCP cuts the bytes, the application cannot tell | Model/App + Model/World + Model/Framed (Spec/Cuts, Proof/Cuts, Props/Cuts): the relation `the unread bytes are the same, cut in another way` (joining neighbouring pieces, or a piece already in the buffer) is kept by every poll, with the same result, because a frame decodes the same with more bytes behind it; nothing but arrivals and polls looks at the read side, so it is a bisimulation of the whole, step by step. Props/CutsExample: a message whole or in two pieces while a consumer waits. | proved |
| C157 | Messages for other consumers do not affect this one | `Spec/Apart`: states that agree on everything but the channels of other clients (`SameFor`), and the largest relation under which every step of one is a step of the other, except another client's taking an event (`AlikeFor`).  `Proof/Apart`, `ApartWorld`, `ApartApp`: every function of the model commutes with erasing the channels of the clients that are not watched; so handling the message is, for this consumer, the same as its not being there. | proved |

None of the properties is outside what the model can express; runtime aspects it cannot show (timing, memory) are no part of any.

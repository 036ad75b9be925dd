import Verif.Model.ProtoWire

/-!
# Schema of `src/protos/pulsar.proto`

Generated mechanically from the .proto file.  Each entry lists the declared fields (number, label, type) in declaration
order; the comment gives the lines of the message and the field names.
-/

namespace Neutron.Proto

/-- The schema of `src/protos/pulsar.proto` (lines 25-1135). -/
def pulsar : Schema
  -- src/protos/pulsar.proto:25-56 message Schema
  | .schema => [
      ⟨1, .required, .str⟩ /- name, line 51 -/,
      ⟨3, .required, .byt⟩ /- schema_data, line 52 -/,
      ⟨4, .required, .enum⟩ /- type, line 53 -/,
      ⟨5, .repeated, (.msg .keyValue)⟩ /- properties, line 54 -/]
  -- src/protos/pulsar.proto:58-68 message MessageIdData
  | .messageIdData => [
      ⟨1, .required, .u64⟩ /- ledgerId, line 59 -/,
      ⟨2, .required, .u64⟩ /- entryId, line 60 -/,
      ⟨3, .optional, .i32⟩ /- partition, line 61 -/,
      ⟨4, .optional, .i32⟩ /- batch_index, line 62 -/,
      ⟨5, .repeated, .i64⟩ /- ack_set, line 63 -/,
      ⟨6, .optional, .i32⟩ /- batch_size, line 64 -/,
      ⟨7, .optional, (.msg .messageIdData)⟩ /- first_chunk_message_id, line 67 -/]
  -- src/protos/pulsar.proto:70-73 message KeyValue
  | .keyValue => [
      ⟨1, .required, .str⟩ /- key, line 71 -/,
      ⟨2, .required, .str⟩ /- value, line 72 -/]
  -- src/protos/pulsar.proto:75-78 message KeyLongValue
  | .keyLongValue => [
      ⟨1, .required, .str⟩ /- key, line 76 -/,
      ⟨2, .required, .u64⟩ /- value, line 77 -/]
  -- src/protos/pulsar.proto:80-83 message IntRange
  | .intRange => [
      ⟨1, .required, .i32⟩ /- start, line 81 -/,
      ⟨2, .required, .i32⟩ /- end, line 82 -/]
  -- src/protos/pulsar.proto:85-89 message EncryptionKeys
  | .encryptionKeys => [
      ⟨1, .required, .str⟩ /- key, line 86 -/,
      ⟨2, .required, .byt⟩ /- value, line 87 -/,
      ⟨3, .repeated, (.msg .keyValue)⟩ /- metadata, line 88 -/]
  -- src/protos/pulsar.proto:106-166 message MessageMetadata
  | .messageMetadata => [
      ⟨1, .required, .str⟩ /- producer_name, line 107 -/,
      ⟨2, .required, .u64⟩ /- sequence_id, line 108 -/,
      ⟨3, .required, .u64⟩ /- publish_time, line 109 -/,
      ⟨4, .repeated, (.msg .keyValue)⟩ /- properties, line 110 -/,
      ⟨5, .optional, .str⟩ /- replicated_from, line 114 -/,
      ⟨6, .optional, .str⟩ /- partition_key, line 116 -/,
      ⟨7, .repeated, .str⟩ /- replicate_to, line 118 -/,
      ⟨8, .optional, .enum⟩ /- compression, line 119 -/,
      ⟨9, .optional, .u32⟩ /- uncompressed_size, line 120 -/,
      ⟨11, .optional, .i32⟩ /- num_messages_in_batch, line 125 -/,
      ⟨12, .optional, .u64⟩ /- event_time, line 129 -/,
      ⟨13, .repeated, (.msg .encryptionKeys)⟩ /- encryption_keys, line 131 -/,
      ⟨14, .optional, .str⟩ /- encryption_algo, line 133 -/,
      ⟨15, .optional, .byt⟩ /- encryption_param, line 135 -/,
      ⟨16, .optional, .byt⟩ /- schema_version, line 136 -/,
      ⟨17, .optional, .bool⟩ /- partition_key_b64_encoded, line 138 -/,
      ⟨18, .optional, .byt⟩ /- ordering_key, line 140 -/,
      ⟨19, .optional, .i64⟩ /- deliver_at_time, line 143 -/,
      ⟨20, .optional, .i32⟩ /- marker_type, line 148 -/,
      ⟨22, .optional, .u64⟩ /- txnid_least_bits, line 151 -/,
      ⟨23, .optional, .u64⟩ /- txnid_most_bits, line 152 -/,
      ⟨24, .optional, .u64⟩ /- highest_sequence_id, line 155 -/,
      ⟨25, .optional, .bool⟩ /- null_value, line 158 -/,
      ⟨26, .optional, .str⟩ /- uuid, line 159 -/,
      ⟨27, .optional, .i32⟩ /- num_chunks_from_msg, line 160 -/,
      ⟨28, .optional, .i32⟩ /- total_chunk_msg_size, line 161 -/,
      ⟨29, .optional, .i32⟩ /- chunk_id, line 162 -/,
      ⟨30, .optional, .bool⟩ /- null_partition_key, line 165 -/]
  -- src/protos/pulsar.proto:168-186 message SingleMessageMetadata
  | .singleMessageMetadata => [
      ⟨1, .repeated, (.msg .keyValue)⟩ /- properties, line 169 -/,
      ⟨2, .optional, .str⟩ /- partition_key, line 170 -/,
      ⟨3, .required, .i32⟩ /- payload_size, line 171 -/,
      ⟨4, .optional, .bool⟩ /- compacted_out, line 172 -/,
      ⟨5, .optional, .u64⟩ /- event_time, line 176 -/,
      ⟨6, .optional, .bool⟩ /- partition_key_b64_encoded, line 177 -/,
      ⟨7, .optional, .byt⟩ /- ordering_key, line 179 -/,
      ⟨8, .optional, .u64⟩ /- sequence_id, line 181 -/,
      ⟨9, .optional, .bool⟩ /- null_value, line 183 -/,
      ⟨10, .optional, .bool⟩ /- null_partition_key, line 185 -/]
  -- src/protos/pulsar.proto:189-192 message BrokerEntryMetadata
  | .brokerEntryMetadata => [
      ⟨1, .optional, .u64⟩ /- broker_timestamp, line 190 -/,
      ⟨2, .optional, .u64⟩ /- index, line 191 -/]
  -- src/protos/pulsar.proto:270-296 message CommandConnect
  | .commandConnect => [
      ⟨1, .required, .str⟩ /- client_version, line 271 -/,
      ⟨2, .optional, .enum⟩ /- auth_method, line 272 -/,
      ⟨5, .optional, .str⟩ /- auth_method_name, line 273 -/,
      ⟨3, .optional, .byt⟩ /- auth_data, line 274 -/,
      ⟨4, .optional, .i32⟩ /- protocol_version, line 275 -/,
      ⟨6, .optional, .str⟩ /- proxy_to_broker_url, line 279 -/,
      ⟨7, .optional, .str⟩ /- original_principal, line 284 -/,
      ⟨8, .optional, .str⟩ /- original_auth_data, line 289 -/,
      ⟨9, .optional, .str⟩ /- original_auth_method, line 290 -/,
      ⟨10, .optional, (.msg .featureFlags)⟩ /- feature_flags, line 293 -/,
      ⟨11, .optional, .str⟩ /- proxy_version, line 295 -/]
  -- src/protos/pulsar.proto:298-303 message FeatureFlags
  | .featureFlags => [
      ⟨1, .optional, .bool⟩ /- supports_auth_refresh, line 299 -/,
      ⟨2, .optional, .bool⟩ /- supports_broker_entry_metadata, line 300 -/,
      ⟨3, .optional, .bool⟩ /- supports_partial_producer, line 301 -/,
      ⟨4, .optional, .bool⟩ /- supports_topic_watchers, line 302 -/]
  -- src/protos/pulsar.proto:305-310 message CommandConnected
  | .commandConnected => [
      ⟨1, .required, .str⟩ /- server_version, line 306 -/,
      ⟨2, .optional, .i32⟩ /- protocol_version, line 307 -/,
      ⟨3, .optional, .i32⟩ /- max_message_size, line 308 -/,
      ⟨4, .optional, (.msg .featureFlags)⟩ /- feature_flags, line 309 -/]
  -- src/protos/pulsar.proto:312-316 message CommandAuthResponse
  | .commandAuthResponse => [
      ⟨1, .optional, .str⟩ /- client_version, line 313 -/,
      ⟨2, .optional, (.msg .authData)⟩ /- response, line 314 -/,
      ⟨3, .optional, .i32⟩ /- protocol_version, line 315 -/]
  -- src/protos/pulsar.proto:318-322 message CommandAuthChallenge
  | .commandAuthChallenge => [
      ⟨1, .optional, .str⟩ /- server_version, line 319 -/,
      ⟨2, .optional, (.msg .authData)⟩ /- challenge, line 320 -/,
      ⟨3, .optional, .i32⟩ /- protocol_version, line 321 -/]
  -- src/protos/pulsar.proto:325-328 message AuthData
  | .authData => [
      ⟨1, .optional, .str⟩ /- auth_method_name, line 326 -/,
      ⟨2, .optional, .byt⟩ /- auth_data, line 327 -/]
  -- src/protos/pulsar.proto:335-339 message KeySharedMeta
  | .keySharedMeta => [
      ⟨1, .required, .enum⟩ /- keySharedMode, line 336 -/,
      ⟨3, .repeated, (.msg .intRange)⟩ /- hashRanges, line 337 -/,
      ⟨4, .optional, .bool⟩ /- allowOutOfOrderDelivery, line 338 -/]
  -- src/protos/pulsar.proto:341-402 message CommandSubscribe
  | .commandSubscribe => [
      ⟨1, .required, .str⟩ /- topic, line 348 -/,
      ⟨2, .required, .str⟩ /- subscription, line 349 -/,
      ⟨3, .required, .enum⟩ /- subType, line 350 -/,
      ⟨4, .required, .u64⟩ /- consumer_id, line 352 -/,
      ⟨5, .required, .u64⟩ /- request_id, line 353 -/,
      ⟨6, .optional, .str⟩ /- consumer_name, line 354 -/,
      ⟨7, .optional, .i32⟩ /- priority_level, line 355 -/,
      ⟨8, .optional, .bool⟩ /- durable, line 359 -/,
      ⟨9, .optional, (.msg .messageIdData)⟩ /- start_message_id, line 364 -/,
      ⟨10, .repeated, (.msg .keyValue)⟩ /- metadata, line 367 -/,
      ⟨11, .optional, .bool⟩ /- read_compacted, line 369 -/,
      ⟨12, .optional, (.msg .schema)⟩ /- schema, line 371 -/,
      ⟨13, .optional, .enum⟩ /- initialPosition, line 378 -/,
      ⟨14, .optional, .bool⟩ /- replicate_subscription_state, line 383 -/,
      ⟨15, .optional, .bool⟩ /- force_topic_creation, line 390 -/,
      ⟨16, .optional, .u64⟩ /- start_message_rollback_duration_sec, line 394 -/,
      ⟨17, .optional, (.msg .keySharedMeta)⟩ /- keySharedMeta, line 396 -/,
      ⟨18, .repeated, (.msg .keyValue)⟩ /- subscription_properties, line 398 -/,
      ⟨19, .optional, .u64⟩ /- consumer_epoch, line 401 -/]
  -- src/protos/pulsar.proto:404-416 message CommandPartitionedTopicMetadata
  | .commandPartitionedTopicMetadata => [
      ⟨1, .required, .str⟩ /- topic, line 405 -/,
      ⟨2, .required, .u64⟩ /- request_id, line 406 -/,
      ⟨3, .optional, .str⟩ /- original_principal, line 410 -/,
      ⟨4, .optional, .str⟩ /- original_auth_data, line 414 -/,
      ⟨5, .optional, .str⟩ /- original_auth_method, line 415 -/]
  -- src/protos/pulsar.proto:418-428 message CommandPartitionedTopicMetadataResponse
  | .commandPartitionedTopicMetadataResponse => [
      ⟨1, .optional, .u32⟩ /- partitions, line 423 -/,
      ⟨2, .required, .u64⟩ /- request_id, line 424 -/,
      ⟨3, .optional, .enum⟩ /- response, line 425 -/,
      ⟨4, .optional, .enum⟩ /- error, line 426 -/,
      ⟨5, .optional, .str⟩ /- message, line 427 -/]
  -- src/protos/pulsar.proto:430-446 message CommandLookupTopic
  | .commandLookupTopic => [
      ⟨1, .required, .str⟩ /- topic, line 431 -/,
      ⟨2, .required, .u64⟩ /- request_id, line 432 -/,
      ⟨3, .optional, .bool⟩ /- authoritative, line 433 -/,
      ⟨4, .optional, .str⟩ /- original_principal, line 438 -/,
      ⟨5, .optional, .str⟩ /- original_auth_data, line 442 -/,
      ⟨6, .optional, .str⟩ /- original_auth_method, line 443 -/,
      ⟨7, .optional, .str⟩ /- advertised_listener_name, line 445 -/]
  -- src/protos/pulsar.proto:448-467 message CommandLookupTopicResponse
  | .commandLookupTopicResponse => [
      ⟨1, .optional, .str⟩ /- brokerServiceUrl, line 455 -/,
      ⟨2, .optional, .str⟩ /- brokerServiceUrlTls, line 456 -/,
      ⟨3, .optional, .enum⟩ /- response, line 457 -/,
      ⟨4, .required, .u64⟩ /- request_id, line 458 -/,
      ⟨5, .optional, .bool⟩ /- authoritative, line 459 -/,
      ⟨6, .optional, .enum⟩ /- error, line 460 -/,
      ⟨7, .optional, .str⟩ /- message, line 461 -/,
      ⟨8, .optional, .bool⟩ /- proxy_through_service_url, line 466 -/]
  -- src/protos/pulsar.proto:471-511 message CommandProducer
  | .commandProducer => [
      ⟨1, .required, .str⟩ /- topic, line 472 -/,
      ⟨2, .required, .u64⟩ /- producer_id, line 473 -/,
      ⟨3, .required, .u64⟩ /- request_id, line 474 -/,
      ⟨4, .optional, .str⟩ /- producer_name, line 478 -/,
      ⟨5, .optional, .bool⟩ /- encrypted, line 480 -/,
      ⟨6, .repeated, (.msg .keyValue)⟩ /- metadata, line 483 -/,
      ⟨7, .optional, (.msg .schema)⟩ /- schema, line 485 -/,
      ⟨8, .optional, .u64⟩ /- epoch, line 488 -/,
      ⟨9, .optional, .bool⟩ /- user_provided_producer_name, line 492 -/,
      ⟨10, .optional, .enum⟩ /- producer_access_mode, line 495 -/,
      ⟨11, .optional, .u64⟩ /- topic_epoch, line 502 -/,
      ⟨12, .optional, .bool⟩ /- txn_enabled, line 504 -/,
      ⟨13, .optional, .str⟩ /- initial_subscription_name, line 510 -/]
  -- src/protos/pulsar.proto:513-529 message CommandSend
  | .commandSend => [
      ⟨1, .required, .u64⟩ /- producer_id, line 514 -/,
      ⟨2, .required, .u64⟩ /- sequence_id, line 515 -/,
      ⟨3, .optional, .i32⟩ /- num_messages, line 516 -/,
      ⟨4, .optional, .u64⟩ /- txnid_least_bits, line 517 -/,
      ⟨5, .optional, .u64⟩ /- txnid_most_bits, line 518 -/,
      ⟨6, .optional, .u64⟩ /- highest_sequence_id, line 521 -/,
      ⟨7, .optional, .bool⟩ /- is_chunk, line 522 -/,
      ⟨8, .optional, .bool⟩ /- marker, line 525 -/,
      ⟨9, .optional, (.msg .messageIdData)⟩ /- message_id, line 528 -/]
  -- src/protos/pulsar.proto:531-536 message CommandSendReceipt
  | .commandSendReceipt => [
      ⟨1, .required, .u64⟩ /- producer_id, line 532 -/,
      ⟨2, .required, .u64⟩ /- sequence_id, line 533 -/,
      ⟨3, .optional, (.msg .messageIdData)⟩ /- message_id, line 534 -/,
      ⟨4, .optional, .u64⟩ /- highest_sequence_id, line 535 -/]
  -- src/protos/pulsar.proto:538-543 message CommandSendError
  | .commandSendError => [
      ⟨1, .required, .u64⟩ /- producer_id, line 539 -/,
      ⟨2, .required, .u64⟩ /- sequence_id, line 540 -/,
      ⟨3, .required, .enum⟩ /- error, line 541 -/,
      ⟨4, .required, .str⟩ /- message, line 542 -/]
  -- src/protos/pulsar.proto:545-551 message CommandMessage
  | .commandMessage => [
      ⟨1, .required, .u64⟩ /- consumer_id, line 546 -/,
      ⟨2, .required, (.msg .messageIdData)⟩ /- message_id, line 547 -/,
      ⟨3, .optional, .u32⟩ /- redelivery_count, line 548 -/,
      ⟨4, .repeated, .i64⟩ /- ack_set, line 549 -/,
      ⟨5, .optional, .u64⟩ /- consumer_epoch, line 550 -/]
  -- src/protos/pulsar.proto:553-582 message CommandAck
  | .commandAck => [
      ⟨1, .required, .u64⟩ /- consumer_id, line 559 -/,
      ⟨2, .required, .enum⟩ /- ack_type, line 560 -/,
      ⟨3, .repeated, (.msg .messageIdData)⟩ /- message_id, line 563 -/,
      ⟨4, .optional, .enum⟩ /- validation_error, line 576 -/,
      ⟨5, .repeated, (.msg .keyLongValue)⟩ /- properties, line 577 -/,
      ⟨6, .optional, .u64⟩ /- txnid_least_bits, line 579 -/,
      ⟨7, .optional, .u64⟩ /- txnid_most_bits, line 580 -/,
      ⟨8, .optional, .u64⟩ /- request_id, line 581 -/]
  -- src/protos/pulsar.proto:584-591 message CommandAckResponse
  | .commandAckResponse => [
      ⟨1, .required, .u64⟩ /- consumer_id, line 585 -/,
      ⟨2, .optional, .u64⟩ /- txnid_least_bits, line 586 -/,
      ⟨3, .optional, .u64⟩ /- txnid_most_bits, line 587 -/,
      ⟨4, .optional, .enum⟩ /- error, line 588 -/,
      ⟨5, .optional, .str⟩ /- message, line 589 -/,
      ⟨6, .optional, .u64⟩ /- request_id, line 590 -/]
  -- src/protos/pulsar.proto:594-597 message CommandActiveConsumerChange
  | .commandActiveConsumerChange => [
      ⟨1, .required, .u64⟩ /- consumer_id, line 595 -/,
      ⟨2, .optional, .bool⟩ /- is_active, line 596 -/]
  -- src/protos/pulsar.proto:599-605 message CommandFlow
  | .commandFlow => [
      ⟨1, .required, .u64⟩ /- consumer_id, line 600 -/,
      ⟨2, .required, .u32⟩ /- messagePermits, line 604 -/]
  -- src/protos/pulsar.proto:607-611 message CommandUnsubscribe
  | .commandUnsubscribe => [
      ⟨1, .required, .u64⟩ /- consumer_id, line 608 -/,
      ⟨2, .required, .u64⟩ /- request_id, line 609 -/,
      ⟨3, .optional, .bool⟩ /- force, line 610 -/]
  -- src/protos/pulsar.proto:614-620 message CommandSeek
  | .commandSeek => [
      ⟨1, .required, .u64⟩ /- consumer_id, line 615 -/,
      ⟨2, .required, .u64⟩ /- request_id, line 616 -/,
      ⟨3, .optional, (.msg .messageIdData)⟩ /- message_id, line 618 -/,
      ⟨4, .optional, .u64⟩ /- message_publish_time, line 619 -/]
  -- src/protos/pulsar.proto:625-627 message CommandReachedEndOfTopic
  | .commandReachedEndOfTopic => [
      ⟨1, .required, .u64⟩ /- consumer_id, line 626 -/]
  -- src/protos/pulsar.proto:629-639 message CommandTopicMigrated
  | .commandTopicMigrated => [
      ⟨1, .required, .u64⟩ /- resource_id, line 634 -/,
      ⟨2, .required, .enum⟩ /- resource_type, line 635 -/,
      ⟨3, .optional, .str⟩ /- brokerServiceUrl, line 636 -/,
      ⟨4, .optional, .str⟩ /- brokerServiceUrlTls, line 637 -/]
  -- src/protos/pulsar.proto:642-647 message CommandCloseProducer
  | .commandCloseProducer => [
      ⟨1, .required, .u64⟩ /- producer_id, line 643 -/,
      ⟨2, .required, .u64⟩ /- request_id, line 644 -/,
      ⟨3, .optional, .str⟩ /- assignedBrokerServiceUrl, line 645 -/,
      ⟨4, .optional, .str⟩ /- assignedBrokerServiceUrlTls, line 646 -/]
  -- src/protos/pulsar.proto:649-654 message CommandCloseConsumer
  | .commandCloseConsumer => [
      ⟨1, .required, .u64⟩ /- consumer_id, line 650 -/,
      ⟨2, .required, .u64⟩ /- request_id, line 651 -/,
      ⟨3, .optional, .str⟩ /- assignedBrokerServiceUrl, line 652 -/,
      ⟨4, .optional, .str⟩ /- assignedBrokerServiceUrlTls, line 653 -/]
  -- src/protos/pulsar.proto:656-660 message CommandRedeliverUnacknowledgedMessages
  | .commandRedeliverUnacknowledgedMessages => [
      ⟨1, .required, .u64⟩ /- consumer_id, line 657 -/,
      ⟨2, .repeated, (.msg .messageIdData)⟩ /- message_ids, line 658 -/,
      ⟨3, .optional, .u64⟩ /- consumer_epoch, line 659 -/]
  -- src/protos/pulsar.proto:662-665 message CommandSuccess
  | .commandSuccess => [
      ⟨1, .required, .u64⟩ /- request_id, line 663 -/,
      ⟨2, .optional, (.msg .schema)⟩ /- schema, line 664 -/]
  -- src/protos/pulsar.proto:668-685 message CommandProducerSuccess
  | .commandProducerSuccess => [
      ⟨1, .required, .u64⟩ /- request_id, line 669 -/,
      ⟨2, .required, .str⟩ /- producer_name, line 670 -/,
      ⟨3, .optional, .i64⟩ /- last_sequence_id, line 674 -/,
      ⟨4, .optional, .byt⟩ /- schema_version, line 675 -/,
      ⟨5, .optional, .u64⟩ /- topic_epoch, line 679 -/,
      ⟨6, .optional, .bool⟩ /- producer_ready, line 684 -/]
  -- src/protos/pulsar.proto:687-691 message CommandError
  | .commandError => [
      ⟨1, .required, .u64⟩ /- request_id, line 688 -/,
      ⟨2, .required, .enum⟩ /- error, line 689 -/,
      ⟨3, .required, .str⟩ /- message, line 690 -/]
  -- src/protos/pulsar.proto:696-697 message CommandPing
  | .commandPing => []
  -- src/protos/pulsar.proto:698-699 message CommandPong
  | .commandPong => []
  -- src/protos/pulsar.proto:701-706 message CommandConsumerStats
  | .commandConsumerStats => [
      ⟨1, .required, .u64⟩ /- request_id, line 702 -/,
      ⟨4, .required, .u64⟩ /- consumer_id, line 705 -/]
  -- src/protos/pulsar.proto:708-751 message CommandConsumerStatsResponse
  | .commandConsumerStatsResponse => [
      ⟨1, .required, .u64⟩ /- request_id, line 709 -/,
      ⟨2, .optional, .enum⟩ /- error_code, line 710 -/,
      ⟨3, .optional, .str⟩ /- error_message, line 711 -/,
      ⟨4, .optional, .dbl⟩ /- msgRateOut, line 714 -/,
      ⟨5, .optional, .dbl⟩ /- msgThroughputOut, line 717 -/,
      ⟨6, .optional, .dbl⟩ /- msgRateRedeliver, line 720 -/,
      ⟨7, .optional, .str⟩ /- consumerName, line 723 -/,
      ⟨8, .optional, .u64⟩ /- availablePermits, line 726 -/,
      ⟨9, .optional, .u64⟩ /- unackedMessages, line 729 -/,
      ⟨10, .optional, .bool⟩ /- blockedConsumerOnUnackedMsgs, line 732 -/,
      ⟨11, .optional, .str⟩ /- address, line 735 -/,
      ⟨12, .optional, .str⟩ /- connectedSince, line 738 -/,
      ⟨13, .optional, .str⟩ /- type, line 741 -/,
      ⟨14, .optional, .dbl⟩ /- msgRateExpired, line 744 -/,
      ⟨15, .optional, .u64⟩ /- msgBacklog, line 747 -/,
      ⟨16, .optional, .dbl⟩ /- messageAckRate, line 750 -/]
  -- src/protos/pulsar.proto:753-756 message CommandGetLastMessageId
  | .commandGetLastMessageId => [
      ⟨1, .required, .u64⟩ /- consumer_id, line 754 -/,
      ⟨2, .required, .u64⟩ /- request_id, line 755 -/]
  -- src/protos/pulsar.proto:758-762 message CommandGetLastMessageIdResponse
  | .commandGetLastMessageIdResponse => [
      ⟨1, .required, (.msg .messageIdData)⟩ /- last_message_id, line 759 -/,
      ⟨2, .required, .u64⟩ /- request_id, line 760 -/,
      ⟨3, .optional, (.msg .messageIdData)⟩ /- consumer_mark_delete_position, line 761 -/]
  -- src/protos/pulsar.proto:764-775 message CommandGetTopicsOfNamespace
  | .commandGetTopicsOfNamespace => [
      ⟨1, .required, .u64⟩ /- request_id, line 770 -/,
      ⟨2, .required, .str⟩ /- namespace, line 771 -/,
      ⟨3, .optional, .enum⟩ /- mode, line 772 -/,
      ⟨4, .optional, .str⟩ /- topics_pattern, line 773 -/,
      ⟨5, .optional, .str⟩ /- topics_hash, line 774 -/]
  -- src/protos/pulsar.proto:777-786 message CommandGetTopicsOfNamespaceResponse
  | .commandGetTopicsOfNamespaceResponse => [
      ⟨1, .required, .u64⟩ /- request_id, line 778 -/,
      ⟨2, .repeated, .str⟩ /- topics, line 779 -/,
      ⟨3, .optional, .bool⟩ /- filtered, line 781 -/,
      ⟨4, .optional, .str⟩ /- topics_hash, line 783 -/,
      ⟨5, .optional, .bool⟩ /- changed, line 785 -/]
  -- src/protos/pulsar.proto:788-795 message CommandWatchTopicList
  | .commandWatchTopicList => [
      ⟨1, .required, .u64⟩ /- request_id, line 789 -/,
      ⟨2, .required, .u64⟩ /- watcher_id, line 790 -/,
      ⟨3, .required, .str⟩ /- namespace, line 791 -/,
      ⟨4, .required, .str⟩ /- topics_pattern, line 792 -/,
      ⟨5, .optional, .str⟩ /- topics_hash, line 794 -/]
  -- src/protos/pulsar.proto:797-802 message CommandWatchTopicListSuccess
  | .commandWatchTopicListSuccess => [
      ⟨1, .required, .u64⟩ /- request_id, line 798 -/,
      ⟨2, .required, .u64⟩ /- watcher_id, line 799 -/,
      ⟨3, .repeated, .str⟩ /- topic, line 800 -/,
      ⟨4, .required, .str⟩ /- topics_hash, line 801 -/]
  -- src/protos/pulsar.proto:804-809 message CommandWatchTopicUpdate
  | .commandWatchTopicUpdate => [
      ⟨1, .required, .u64⟩ /- watcher_id, line 805 -/,
      ⟨2, .repeated, .str⟩ /- new_topics, line 806 -/,
      ⟨3, .repeated, .str⟩ /- deleted_topics, line 807 -/,
      ⟨4, .required, .str⟩ /- topics_hash, line 808 -/]
  -- src/protos/pulsar.proto:811-814 message CommandWatchTopicListClose
  | .commandWatchTopicListClose => [
      ⟨1, .required, .u64⟩ /- request_id, line 812 -/,
      ⟨2, .required, .u64⟩ /- watcher_id, line 813 -/]
  -- src/protos/pulsar.proto:816-821 message CommandGetSchema
  | .commandGetSchema => [
      ⟨1, .required, .u64⟩ /- request_id, line 817 -/,
      ⟨2, .required, .str⟩ /- topic, line 818 -/,
      ⟨3, .optional, .byt⟩ /- schema_version, line 820 -/]
  -- src/protos/pulsar.proto:823-830 message CommandGetSchemaResponse
  | .commandGetSchemaResponse => [
      ⟨1, .required, .u64⟩ /- request_id, line 824 -/,
      ⟨2, .optional, .enum⟩ /- error_code, line 825 -/,
      ⟨3, .optional, .str⟩ /- error_message, line 826 -/,
      ⟨4, .optional, (.msg .schema)⟩ /- schema, line 828 -/,
      ⟨5, .optional, .byt⟩ /- schema_version, line 829 -/]
  -- src/protos/pulsar.proto:832-836 message CommandGetOrCreateSchema
  | .commandGetOrCreateSchema => [
      ⟨1, .required, .u64⟩ /- request_id, line 833 -/,
      ⟨2, .required, .str⟩ /- topic, line 834 -/,
      ⟨3, .required, (.msg .schema)⟩ /- schema, line 835 -/]
  -- src/protos/pulsar.proto:838-844 message CommandGetOrCreateSchemaResponse
  | .commandGetOrCreateSchemaResponse => [
      ⟨1, .required, .u64⟩ /- request_id, line 839 -/,
      ⟨2, .optional, .enum⟩ /- error_code, line 840 -/,
      ⟨3, .optional, .str⟩ /- error_message, line 841 -/,
      ⟨4, .optional, .byt⟩ /- schema_version, line 843 -/]
  -- src/protos/pulsar.proto:853-856 message CommandTcClientConnectRequest
  | .commandTcClientConnectRequest => [
      ⟨1, .required, .u64⟩ /- request_id, line 854 -/,
      ⟨2, .required, .u64⟩ /- tc_id, line 855 -/]
  -- src/protos/pulsar.proto:858-862 message CommandTcClientConnectResponse
  | .commandTcClientConnectResponse => [
      ⟨1, .required, .u64⟩ /- request_id, line 859 -/,
      ⟨2, .optional, .enum⟩ /- error, line 860 -/,
      ⟨3, .optional, .str⟩ /- message, line 861 -/]
  -- src/protos/pulsar.proto:864-868 message CommandNewTxn
  | .commandNewTxn => [
      ⟨1, .required, .u64⟩ /- request_id, line 865 -/,
      ⟨2, .optional, .u64⟩ /- txn_ttl_seconds, line 866 -/,
      ⟨3, .optional, .u64⟩ /- tc_id, line 867 -/]
  -- src/protos/pulsar.proto:870-876 message CommandNewTxnResponse
  | .commandNewTxnResponse => [
      ⟨1, .required, .u64⟩ /- request_id, line 871 -/,
      ⟨2, .optional, .u64⟩ /- txnid_least_bits, line 872 -/,
      ⟨3, .optional, .u64⟩ /- txnid_most_bits, line 873 -/,
      ⟨4, .optional, .enum⟩ /- error, line 874 -/,
      ⟨5, .optional, .str⟩ /- message, line 875 -/]
  -- src/protos/pulsar.proto:878-883 message CommandAddPartitionToTxn
  | .commandAddPartitionToTxn => [
      ⟨1, .required, .u64⟩ /- request_id, line 879 -/,
      ⟨2, .optional, .u64⟩ /- txnid_least_bits, line 880 -/,
      ⟨3, .optional, .u64⟩ /- txnid_most_bits, line 881 -/,
      ⟨4, .repeated, .str⟩ /- partitions, line 882 -/]
  -- src/protos/pulsar.proto:885-891 message CommandAddPartitionToTxnResponse
  | .commandAddPartitionToTxnResponse => [
      ⟨1, .required, .u64⟩ /- request_id, line 886 -/,
      ⟨2, .optional, .u64⟩ /- txnid_least_bits, line 887 -/,
      ⟨3, .optional, .u64⟩ /- txnid_most_bits, line 888 -/,
      ⟨4, .optional, .enum⟩ /- error, line 889 -/,
      ⟨5, .optional, .str⟩ /- message, line 890 -/]
  -- src/protos/pulsar.proto:893-896 message Subscription
  | .subscription => [
      ⟨1, .required, .str⟩ /- topic, line 894 -/,
      ⟨2, .required, .str⟩ /- subscription, line 895 -/]
  -- src/protos/pulsar.proto:897-902 message CommandAddSubscriptionToTxn
  | .commandAddSubscriptionToTxn => [
      ⟨1, .required, .u64⟩ /- request_id, line 898 -/,
      ⟨2, .optional, .u64⟩ /- txnid_least_bits, line 899 -/,
      ⟨3, .optional, .u64⟩ /- txnid_most_bits, line 900 -/,
      ⟨4, .repeated, (.msg .subscription)⟩ /- subscription, line 901 -/]
  -- src/protos/pulsar.proto:904-910 message CommandAddSubscriptionToTxnResponse
  | .commandAddSubscriptionToTxnResponse => [
      ⟨1, .required, .u64⟩ /- request_id, line 905 -/,
      ⟨2, .optional, .u64⟩ /- txnid_least_bits, line 906 -/,
      ⟨3, .optional, .u64⟩ /- txnid_most_bits, line 907 -/,
      ⟨4, .optional, .enum⟩ /- error, line 908 -/,
      ⟨5, .optional, .str⟩ /- message, line 909 -/]
  -- src/protos/pulsar.proto:912-917 message CommandEndTxn
  | .commandEndTxn => [
      ⟨1, .required, .u64⟩ /- request_id, line 913 -/,
      ⟨2, .optional, .u64⟩ /- txnid_least_bits, line 914 -/,
      ⟨3, .optional, .u64⟩ /- txnid_most_bits, line 915 -/,
      ⟨4, .optional, .enum⟩ /- txn_action, line 916 -/]
  -- src/protos/pulsar.proto:919-925 message CommandEndTxnResponse
  | .commandEndTxnResponse => [
      ⟨1, .required, .u64⟩ /- request_id, line 920 -/,
      ⟨2, .optional, .u64⟩ /- txnid_least_bits, line 921 -/,
      ⟨3, .optional, .u64⟩ /- txnid_most_bits, line 922 -/,
      ⟨4, .optional, .enum⟩ /- error, line 923 -/,
      ⟨5, .optional, .str⟩ /- message, line 924 -/]
  -- src/protos/pulsar.proto:927-934 message CommandEndTxnOnPartition
  | .commandEndTxnOnPartition => [
      ⟨1, .required, .u64⟩ /- request_id, line 928 -/,
      ⟨2, .optional, .u64⟩ /- txnid_least_bits, line 929 -/,
      ⟨3, .optional, .u64⟩ /- txnid_most_bits, line 930 -/,
      ⟨4, .optional, .str⟩ /- topic, line 931 -/,
      ⟨5, .optional, .enum⟩ /- txn_action, line 932 -/,
      ⟨6, .optional, .u64⟩ /- txnid_least_bits_of_low_watermark, line 933 -/]
  -- src/protos/pulsar.proto:936-942 message CommandEndTxnOnPartitionResponse
  | .commandEndTxnOnPartitionResponse => [
      ⟨1, .required, .u64⟩ /- request_id, line 937 -/,
      ⟨2, .optional, .u64⟩ /- txnid_least_bits, line 938 -/,
      ⟨3, .optional, .u64⟩ /- txnid_most_bits, line 939 -/,
      ⟨4, .optional, .enum⟩ /- error, line 940 -/,
      ⟨5, .optional, .str⟩ /- message, line 941 -/]
  -- src/protos/pulsar.proto:944-951 message CommandEndTxnOnSubscription
  | .commandEndTxnOnSubscription => [
      ⟨1, .required, .u64⟩ /- request_id, line 945 -/,
      ⟨2, .optional, .u64⟩ /- txnid_least_bits, line 946 -/,
      ⟨3, .optional, .u64⟩ /- txnid_most_bits, line 947 -/,
      ⟨4, .optional, (.msg .subscription)⟩ /- subscription, line 948 -/,
      ⟨5, .optional, .enum⟩ /- txn_action, line 949 -/,
      ⟨6, .optional, .u64⟩ /- txnid_least_bits_of_low_watermark, line 950 -/]
  -- src/protos/pulsar.proto:953-959 message CommandEndTxnOnSubscriptionResponse
  | .commandEndTxnOnSubscriptionResponse => [
      ⟨1, .required, .u64⟩ /- request_id, line 954 -/,
      ⟨2, .optional, .u64⟩ /- txnid_least_bits, line 955 -/,
      ⟨3, .optional, .u64⟩ /- txnid_most_bits, line 956 -/,
      ⟨4, .optional, .enum⟩ /- error, line 957 -/,
      ⟨5, .optional, .str⟩ /- message, line 958 -/]
  -- src/protos/pulsar.proto:961-1135 message BaseCommand
  | .baseCommand => [
      ⟨1, .required, .enum⟩ /- type, line 1055 -/,
      ⟨2, .optional, (.msg .commandConnect)⟩ /- connect, line 1057 -/,
      ⟨3, .optional, (.msg .commandConnected)⟩ /- connected, line 1058 -/,
      ⟨4, .optional, (.msg .commandSubscribe)⟩ /- subscribe, line 1060 -/,
      ⟨5, .optional, (.msg .commandProducer)⟩ /- producer, line 1061 -/,
      ⟨6, .optional, (.msg .commandSend)⟩ /- send, line 1062 -/,
      ⟨7, .optional, (.msg .commandSendReceipt)⟩ /- send_receipt, line 1063 -/,
      ⟨8, .optional, (.msg .commandSendError)⟩ /- send_error, line 1064 -/,
      ⟨9, .optional, (.msg .commandMessage)⟩ /- message, line 1065 -/,
      ⟨10, .optional, (.msg .commandAck)⟩ /- ack, line 1066 -/,
      ⟨11, .optional, (.msg .commandFlow)⟩ /- flow, line 1067 -/,
      ⟨12, .optional, (.msg .commandUnsubscribe)⟩ /- unsubscribe, line 1068 -/,
      ⟨13, .optional, (.msg .commandSuccess)⟩ /- success, line 1070 -/,
      ⟨14, .optional, (.msg .commandError)⟩ /- error, line 1071 -/,
      ⟨15, .optional, (.msg .commandCloseProducer)⟩ /- close_producer, line 1073 -/,
      ⟨16, .optional, (.msg .commandCloseConsumer)⟩ /- close_consumer, line 1074 -/,
      ⟨17, .optional, (.msg .commandProducerSuccess)⟩ /- producer_success, line 1076 -/,
      ⟨18, .optional, (.msg .commandPing)⟩ /- ping, line 1077 -/,
      ⟨19, .optional, (.msg .commandPong)⟩ /- pong, line 1078 -/,
      ⟨20, .optional, (.msg .commandRedeliverUnacknowledgedMessages)⟩ /- redeliverUnacknowledgedMessages, line 1079 -/,
      ⟨21, .optional, (.msg .commandPartitionedTopicMetadata)⟩ /- partitionMetadata, line 1081 -/,
      ⟨22, .optional, (.msg .commandPartitionedTopicMetadataResponse)⟩ /- partitionMetadataResponse, line 1082 -/,
      ⟨23, .optional, (.msg .commandLookupTopic)⟩ /- lookupTopic, line 1084 -/,
      ⟨24, .optional, (.msg .commandLookupTopicResponse)⟩ /- lookupTopicResponse, line 1085 -/,
      ⟨25, .optional, (.msg .commandConsumerStats)⟩ /- consumerStats, line 1087 -/,
      ⟨26, .optional, (.msg .commandConsumerStatsResponse)⟩ /- consumerStatsResponse, line 1088 -/,
      ⟨27, .optional, (.msg .commandReachedEndOfTopic)⟩ /- reachedEndOfTopic, line 1090 -/,
      ⟨28, .optional, (.msg .commandSeek)⟩ /- seek, line 1092 -/,
      ⟨29, .optional, (.msg .commandGetLastMessageId)⟩ /- getLastMessageId, line 1094 -/,
      ⟨30, .optional, (.msg .commandGetLastMessageIdResponse)⟩ /- getLastMessageIdResponse, line 1095 -/,
      ⟨31, .optional, (.msg .commandActiveConsumerChange)⟩ /- active_consumer_change, line 1097 -/,
      ⟨32, .optional, (.msg .commandGetTopicsOfNamespace)⟩ /- getTopicsOfNamespace, line 1099 -/,
      ⟨33, .optional, (.msg .commandGetTopicsOfNamespaceResponse)⟩ /- getTopicsOfNamespaceResponse, line 1100 -/,
      ⟨34, .optional, (.msg .commandGetSchema)⟩ /- getSchema, line 1102 -/,
      ⟨35, .optional, (.msg .commandGetSchemaResponse)⟩ /- getSchemaResponse, line 1103 -/,
      ⟨36, .optional, (.msg .commandAuthChallenge)⟩ /- authChallenge, line 1105 -/,
      ⟨37, .optional, (.msg .commandAuthResponse)⟩ /- authResponse, line 1106 -/,
      ⟨38, .optional, (.msg .commandAckResponse)⟩ /- ackResponse, line 1108 -/,
      ⟨39, .optional, (.msg .commandGetOrCreateSchema)⟩ /- getOrCreateSchema, line 1110 -/,
      ⟨40, .optional, (.msg .commandGetOrCreateSchemaResponse)⟩ /- getOrCreateSchemaResponse, line 1111 -/,
      ⟨50, .optional, (.msg .commandNewTxn)⟩ /- newTxn, line 1114 -/,
      ⟨51, .optional, (.msg .commandNewTxnResponse)⟩ /- newTxnResponse, line 1115 -/,
      ⟨52, .optional, (.msg .commandAddPartitionToTxn)⟩ /- addPartitionToTxn, line 1116 -/,
      ⟨53, .optional, (.msg .commandAddPartitionToTxnResponse)⟩ /- addPartitionToTxnResponse, line 1117 -/,
      ⟨54, .optional, (.msg .commandAddSubscriptionToTxn)⟩ /- addSubscriptionToTxn, line 1118 -/,
      ⟨55, .optional, (.msg .commandAddSubscriptionToTxnResponse)⟩ /- addSubscriptionToTxnResponse, line 1119 -/,
      ⟨56, .optional, (.msg .commandEndTxn)⟩ /- endTxn, line 1120 -/,
      ⟨57, .optional, (.msg .commandEndTxnResponse)⟩ /- endTxnResponse, line 1121 -/,
      ⟨58, .optional, (.msg .commandEndTxnOnPartition)⟩ /- endTxnOnPartition, line 1122 -/,
      ⟨59, .optional, (.msg .commandEndTxnOnPartitionResponse)⟩ /- endTxnOnPartitionResponse, line 1123 -/,
      ⟨60, .optional, (.msg .commandEndTxnOnSubscription)⟩ /- endTxnOnSubscription, line 1124 -/,
      ⟨61, .optional, (.msg .commandEndTxnOnSubscriptionResponse)⟩ /- endTxnOnSubscriptionResponse, line 1125 -/,
      ⟨62, .optional, (.msg .commandTcClientConnectRequest)⟩ /- tcClientConnectRequest, line 1126 -/,
      ⟨63, .optional, (.msg .commandTcClientConnectResponse)⟩ /- tcClientConnectResponse, line 1127 -/,
      ⟨64, .optional, (.msg .commandWatchTopicList)⟩ /- watchTopicList, line 1129 -/,
      ⟨65, .optional, (.msg .commandWatchTopicListSuccess)⟩ /- watchTopicListSuccess, line 1130 -/,
      ⟨66, .optional, (.msg .commandWatchTopicUpdate)⟩ /- watchTopicUpdate, line 1131 -/,
      ⟨67, .optional, (.msg .commandWatchTopicListClose)⟩ /- watchTopicListClose, line 1132 -/,
      ⟨68, .optional, (.msg .commandTopicMigrated)⟩ /- topicMigrated, line 1134 -/]

end Neutron.Proto

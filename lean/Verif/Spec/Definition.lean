import Verif.Spec.Proto

/-!
# The protocol definition

The message types of `src/protos/pulsar.proto` with the names, labels and types written there, line by line, and what it means for a value
to be one of them (protobuf 2). It does not use the schema of the model.
-/

namespace Neutron.Proto

/-- A type as written in a .proto file. -/
inductive ProtoType where
  | uint64 | int64 | int32 | uint32 | bool | double | string | bytes
  | enum (name : String)
  | message (t : MsgTy)

/-- A field as written in a .proto file. -/
structure ProtoField where
  label : Label
  type : ProtoType
  name : String
  number : Nat

/-- `src/protos/pulsar.proto`. -/
def definition : MsgTy → List ProtoField
  -- 25-56 message Schema
  | .schema => [
      ⟨.required, .string, "name", 1⟩,
      ⟨.required, .bytes, "schema_data", 3⟩,
      ⟨.required, (.enum "Type"), "type", 4⟩,
      ⟨.repeated, (.message .keyValue), "properties", 5⟩]
  -- 58-68 message MessageIdData
  | .messageIdData => [
      ⟨.required, .uint64, "ledgerId", 1⟩,
      ⟨.required, .uint64, "entryId", 2⟩,
      ⟨.optional, .int32, "partition", 3⟩,
      ⟨.optional, .int32, "batch_index", 4⟩,
      ⟨.repeated, .int64, "ack_set", 5⟩,
      ⟨.optional, .int32, "batch_size", 6⟩,
      ⟨.optional, (.message .messageIdData), "first_chunk_message_id", 7⟩]
  -- 70-73 message KeyValue
  | .keyValue => [
      ⟨.required, .string, "key", 1⟩,
      ⟨.required, .string, "value", 2⟩]
  -- 75-78 message KeyLongValue
  | .keyLongValue => [
      ⟨.required, .string, "key", 1⟩,
      ⟨.required, .uint64, "value", 2⟩]
  -- 80-83 message IntRange
  | .intRange => [
      ⟨.required, .int32, "start", 1⟩,
      ⟨.required, .int32, "end", 2⟩]
  -- 85-89 message EncryptionKeys
  | .encryptionKeys => [
      ⟨.required, .string, "key", 1⟩,
      ⟨.required, .bytes, "value", 2⟩,
      ⟨.repeated, (.message .keyValue), "metadata", 3⟩]
  -- 106-166 message MessageMetadata
  | .messageMetadata => [
      ⟨.required, .string, "producer_name", 1⟩,
      ⟨.required, .uint64, "sequence_id", 2⟩,
      ⟨.required, .uint64, "publish_time", 3⟩,
      ⟨.repeated, (.message .keyValue), "properties", 4⟩,
      ⟨.optional, .string, "replicated_from", 5⟩,
      ⟨.optional, .string, "partition_key", 6⟩,
      ⟨.repeated, .string, "replicate_to", 7⟩,
      ⟨.optional, (.enum "CompressionType"), "compression", 8⟩,
      ⟨.optional, .uint32, "uncompressed_size", 9⟩,
      ⟨.optional, .int32, "num_messages_in_batch", 11⟩,
      ⟨.optional, .uint64, "event_time", 12⟩,
      ⟨.repeated, (.message .encryptionKeys), "encryption_keys", 13⟩,
      ⟨.optional, .string, "encryption_algo", 14⟩,
      ⟨.optional, .bytes, "encryption_param", 15⟩,
      ⟨.optional, .bytes, "schema_version", 16⟩,
      ⟨.optional, .bool, "partition_key_b64_encoded", 17⟩,
      ⟨.optional, .bytes, "ordering_key", 18⟩,
      ⟨.optional, .int64, "deliver_at_time", 19⟩,
      ⟨.optional, .int32, "marker_type", 20⟩,
      ⟨.optional, .uint64, "txnid_least_bits", 22⟩,
      ⟨.optional, .uint64, "txnid_most_bits", 23⟩,
      ⟨.optional, .uint64, "highest_sequence_id", 24⟩,
      ⟨.optional, .bool, "null_value", 25⟩,
      ⟨.optional, .string, "uuid", 26⟩,
      ⟨.optional, .int32, "num_chunks_from_msg", 27⟩,
      ⟨.optional, .int32, "total_chunk_msg_size", 28⟩,
      ⟨.optional, .int32, "chunk_id", 29⟩,
      ⟨.optional, .bool, "null_partition_key", 30⟩]
  -- 168-186 message SingleMessageMetadata
  | .singleMessageMetadata => [
      ⟨.repeated, (.message .keyValue), "properties", 1⟩,
      ⟨.optional, .string, "partition_key", 2⟩,
      ⟨.required, .int32, "payload_size", 3⟩,
      ⟨.optional, .bool, "compacted_out", 4⟩,
      ⟨.optional, .uint64, "event_time", 5⟩,
      ⟨.optional, .bool, "partition_key_b64_encoded", 6⟩,
      ⟨.optional, .bytes, "ordering_key", 7⟩,
      ⟨.optional, .uint64, "sequence_id", 8⟩,
      ⟨.optional, .bool, "null_value", 9⟩,
      ⟨.optional, .bool, "null_partition_key", 10⟩]
  -- 189-192 message BrokerEntryMetadata
  | .brokerEntryMetadata => [
      ⟨.optional, .uint64, "broker_timestamp", 1⟩,
      ⟨.optional, .uint64, "index", 2⟩]
  -- 270-296 message CommandConnect
  | .commandConnect => [
      ⟨.required, .string, "client_version", 1⟩,
      ⟨.optional, (.enum "AuthMethod"), "auth_method", 2⟩,
      ⟨.optional, .string, "auth_method_name", 5⟩,
      ⟨.optional, .bytes, "auth_data", 3⟩,
      ⟨.optional, .int32, "protocol_version", 4⟩,
      ⟨.optional, .string, "proxy_to_broker_url", 6⟩,
      ⟨.optional, .string, "original_principal", 7⟩,
      ⟨.optional, .string, "original_auth_data", 8⟩,
      ⟨.optional, .string, "original_auth_method", 9⟩,
      ⟨.optional, (.message .featureFlags), "feature_flags", 10⟩,
      ⟨.optional, .string, "proxy_version", 11⟩]
  -- 298-303 message FeatureFlags
  | .featureFlags => [
      ⟨.optional, .bool, "supports_auth_refresh", 1⟩,
      ⟨.optional, .bool, "supports_broker_entry_metadata", 2⟩,
      ⟨.optional, .bool, "supports_partial_producer", 3⟩,
      ⟨.optional, .bool, "supports_topic_watchers", 4⟩]
  -- 305-310 message CommandConnected
  | .commandConnected => [
      ⟨.required, .string, "server_version", 1⟩,
      ⟨.optional, .int32, "protocol_version", 2⟩,
      ⟨.optional, .int32, "max_message_size", 3⟩,
      ⟨.optional, (.message .featureFlags), "feature_flags", 4⟩]
  -- 312-316 message CommandAuthResponse
  | .commandAuthResponse => [
      ⟨.optional, .string, "client_version", 1⟩,
      ⟨.optional, (.message .authData), "response", 2⟩,
      ⟨.optional, .int32, "protocol_version", 3⟩]
  -- 318-322 message CommandAuthChallenge
  | .commandAuthChallenge => [
      ⟨.optional, .string, "server_version", 1⟩,
      ⟨.optional, (.message .authData), "challenge", 2⟩,
      ⟨.optional, .int32, "protocol_version", 3⟩]
  -- 325-328 message AuthData
  | .authData => [
      ⟨.optional, .string, "auth_method_name", 1⟩,
      ⟨.optional, .bytes, "auth_data", 2⟩]
  -- 335-339 message KeySharedMeta
  | .keySharedMeta => [
      ⟨.required, (.enum "KeySharedMode"), "keySharedMode", 1⟩,
      ⟨.repeated, (.message .intRange), "hashRanges", 3⟩,
      ⟨.optional, .bool, "allowOutOfOrderDelivery", 4⟩]
  -- 341-402 message CommandSubscribe
  | .commandSubscribe => [
      ⟨.required, .string, "topic", 1⟩,
      ⟨.required, .string, "subscription", 2⟩,
      ⟨.required, (.enum "SubType"), "subType", 3⟩,
      ⟨.required, .uint64, "consumer_id", 4⟩,
      ⟨.required, .uint64, "request_id", 5⟩,
      ⟨.optional, .string, "consumer_name", 6⟩,
      ⟨.optional, .int32, "priority_level", 7⟩,
      ⟨.optional, .bool, "durable", 8⟩,
      ⟨.optional, (.message .messageIdData), "start_message_id", 9⟩,
      ⟨.repeated, (.message .keyValue), "metadata", 10⟩,
      ⟨.optional, .bool, "read_compacted", 11⟩,
      ⟨.optional, (.message .schema), "schema", 12⟩,
      ⟨.optional, (.enum "InitialPosition"), "initialPosition", 13⟩,
      ⟨.optional, .bool, "replicate_subscription_state", 14⟩,
      ⟨.optional, .bool, "force_topic_creation", 15⟩,
      ⟨.optional, .uint64, "start_message_rollback_duration_sec", 16⟩,
      ⟨.optional, (.message .keySharedMeta), "keySharedMeta", 17⟩,
      ⟨.repeated, (.message .keyValue), "subscription_properties", 18⟩,
      ⟨.optional, .uint64, "consumer_epoch", 19⟩]
  -- 404-416 message CommandPartitionedTopicMetadata
  | .commandPartitionedTopicMetadata => [
      ⟨.required, .string, "topic", 1⟩,
      ⟨.required, .uint64, "request_id", 2⟩,
      ⟨.optional, .string, "original_principal", 3⟩,
      ⟨.optional, .string, "original_auth_data", 4⟩,
      ⟨.optional, .string, "original_auth_method", 5⟩]
  -- 418-428 message CommandPartitionedTopicMetadataResponse
  | .commandPartitionedTopicMetadataResponse => [
      ⟨.optional, .uint32, "partitions", 1⟩,
      ⟨.required, .uint64, "request_id", 2⟩,
      ⟨.optional, (.enum "LookupType"), "response", 3⟩,
      ⟨.optional, (.enum "ServerError"), "error", 4⟩,
      ⟨.optional, .string, "message", 5⟩]
  -- 430-446 message CommandLookupTopic
  | .commandLookupTopic => [
      ⟨.required, .string, "topic", 1⟩,
      ⟨.required, .uint64, "request_id", 2⟩,
      ⟨.optional, .bool, "authoritative", 3⟩,
      ⟨.optional, .string, "original_principal", 4⟩,
      ⟨.optional, .string, "original_auth_data", 5⟩,
      ⟨.optional, .string, "original_auth_method", 6⟩,
      ⟨.optional, .string, "advertised_listener_name", 7⟩]
  -- 448-467 message CommandLookupTopicResponse
  | .commandLookupTopicResponse => [
      ⟨.optional, .string, "brokerServiceUrl", 1⟩,
      ⟨.optional, .string, "brokerServiceUrlTls", 2⟩,
      ⟨.optional, (.enum "LookupType"), "response", 3⟩,
      ⟨.required, .uint64, "request_id", 4⟩,
      ⟨.optional, .bool, "authoritative", 5⟩,
      ⟨.optional, (.enum "ServerError"), "error", 6⟩,
      ⟨.optional, .string, "message", 7⟩,
      ⟨.optional, .bool, "proxy_through_service_url", 8⟩]
  -- 471-511 message CommandProducer
  | .commandProducer => [
      ⟨.required, .string, "topic", 1⟩,
      ⟨.required, .uint64, "producer_id", 2⟩,
      ⟨.required, .uint64, "request_id", 3⟩,
      ⟨.optional, .string, "producer_name", 4⟩,
      ⟨.optional, .bool, "encrypted", 5⟩,
      ⟨.repeated, (.message .keyValue), "metadata", 6⟩,
      ⟨.optional, (.message .schema), "schema", 7⟩,
      ⟨.optional, .uint64, "epoch", 8⟩,
      ⟨.optional, .bool, "user_provided_producer_name", 9⟩,
      ⟨.optional, (.enum "ProducerAccessMode"), "producer_access_mode", 10⟩,
      ⟨.optional, .uint64, "topic_epoch", 11⟩,
      ⟨.optional, .bool, "txn_enabled", 12⟩,
      ⟨.optional, .string, "initial_subscription_name", 13⟩]
  -- 513-529 message CommandSend
  | .commandSend => [
      ⟨.required, .uint64, "producer_id", 1⟩,
      ⟨.required, .uint64, "sequence_id", 2⟩,
      ⟨.optional, .int32, "num_messages", 3⟩,
      ⟨.optional, .uint64, "txnid_least_bits", 4⟩,
      ⟨.optional, .uint64, "txnid_most_bits", 5⟩,
      ⟨.optional, .uint64, "highest_sequence_id", 6⟩,
      ⟨.optional, .bool, "is_chunk", 7⟩,
      ⟨.optional, .bool, "marker", 8⟩,
      ⟨.optional, (.message .messageIdData), "message_id", 9⟩]
  -- 531-536 message CommandSendReceipt
  | .commandSendReceipt => [
      ⟨.required, .uint64, "producer_id", 1⟩,
      ⟨.required, .uint64, "sequence_id", 2⟩,
      ⟨.optional, (.message .messageIdData), "message_id", 3⟩,
      ⟨.optional, .uint64, "highest_sequence_id", 4⟩]
  -- 538-543 message CommandSendError
  | .commandSendError => [
      ⟨.required, .uint64, "producer_id", 1⟩,
      ⟨.required, .uint64, "sequence_id", 2⟩,
      ⟨.required, (.enum "ServerError"), "error", 3⟩,
      ⟨.required, .string, "message", 4⟩]
  -- 545-551 message CommandMessage
  | .commandMessage => [
      ⟨.required, .uint64, "consumer_id", 1⟩,
      ⟨.required, (.message .messageIdData), "message_id", 2⟩,
      ⟨.optional, .uint32, "redelivery_count", 3⟩,
      ⟨.repeated, .int64, "ack_set", 4⟩,
      ⟨.optional, .uint64, "consumer_epoch", 5⟩]
  -- 553-582 message CommandAck
  | .commandAck => [
      ⟨.required, .uint64, "consumer_id", 1⟩,
      ⟨.required, (.enum "AckType"), "ack_type", 2⟩,
      ⟨.repeated, (.message .messageIdData), "message_id", 3⟩,
      ⟨.optional, (.enum "ValidationError"), "validation_error", 4⟩,
      ⟨.repeated, (.message .keyLongValue), "properties", 5⟩,
      ⟨.optional, .uint64, "txnid_least_bits", 6⟩,
      ⟨.optional, .uint64, "txnid_most_bits", 7⟩,
      ⟨.optional, .uint64, "request_id", 8⟩]
  -- 584-591 message CommandAckResponse
  | .commandAckResponse => [
      ⟨.required, .uint64, "consumer_id", 1⟩,
      ⟨.optional, .uint64, "txnid_least_bits", 2⟩,
      ⟨.optional, .uint64, "txnid_most_bits", 3⟩,
      ⟨.optional, (.enum "ServerError"), "error", 4⟩,
      ⟨.optional, .string, "message", 5⟩,
      ⟨.optional, .uint64, "request_id", 6⟩]
  -- 594-597 message CommandActiveConsumerChange
  | .commandActiveConsumerChange => [
      ⟨.required, .uint64, "consumer_id", 1⟩,
      ⟨.optional, .bool, "is_active", 2⟩]
  -- 599-605 message CommandFlow
  | .commandFlow => [
      ⟨.required, .uint64, "consumer_id", 1⟩,
      ⟨.required, .uint32, "messagePermits", 2⟩]
  -- 607-611 message CommandUnsubscribe
  | .commandUnsubscribe => [
      ⟨.required, .uint64, "consumer_id", 1⟩,
      ⟨.required, .uint64, "request_id", 2⟩,
      ⟨.optional, .bool, "force", 3⟩]
  -- 614-620 message CommandSeek
  | .commandSeek => [
      ⟨.required, .uint64, "consumer_id", 1⟩,
      ⟨.required, .uint64, "request_id", 2⟩,
      ⟨.optional, (.message .messageIdData), "message_id", 3⟩,
      ⟨.optional, .uint64, "message_publish_time", 4⟩]
  -- 625-627 message CommandReachedEndOfTopic
  | .commandReachedEndOfTopic => [
      ⟨.required, .uint64, "consumer_id", 1⟩]
  -- 629-639 message CommandTopicMigrated
  | .commandTopicMigrated => [
      ⟨.required, .uint64, "resource_id", 1⟩,
      ⟨.required, (.enum "ResourceType"), "resource_type", 2⟩,
      ⟨.optional, .string, "brokerServiceUrl", 3⟩,
      ⟨.optional, .string, "brokerServiceUrlTls", 4⟩]
  -- 642-647 message CommandCloseProducer
  | .commandCloseProducer => [
      ⟨.required, .uint64, "producer_id", 1⟩,
      ⟨.required, .uint64, "request_id", 2⟩,
      ⟨.optional, .string, "assignedBrokerServiceUrl", 3⟩,
      ⟨.optional, .string, "assignedBrokerServiceUrlTls", 4⟩]
  -- 649-654 message CommandCloseConsumer
  | .commandCloseConsumer => [
      ⟨.required, .uint64, "consumer_id", 1⟩,
      ⟨.required, .uint64, "request_id", 2⟩,
      ⟨.optional, .string, "assignedBrokerServiceUrl", 3⟩,
      ⟨.optional, .string, "assignedBrokerServiceUrlTls", 4⟩]
  -- 656-660 message CommandRedeliverUnacknowledgedMessages
  | .commandRedeliverUnacknowledgedMessages => [
      ⟨.required, .uint64, "consumer_id", 1⟩,
      ⟨.repeated, (.message .messageIdData), "message_ids", 2⟩,
      ⟨.optional, .uint64, "consumer_epoch", 3⟩]
  -- 662-665 message CommandSuccess
  | .commandSuccess => [
      ⟨.required, .uint64, "request_id", 1⟩,
      ⟨.optional, (.message .schema), "schema", 2⟩]
  -- 668-685 message CommandProducerSuccess
  | .commandProducerSuccess => [
      ⟨.required, .uint64, "request_id", 1⟩,
      ⟨.required, .string, "producer_name", 2⟩,
      ⟨.optional, .int64, "last_sequence_id", 3⟩,
      ⟨.optional, .bytes, "schema_version", 4⟩,
      ⟨.optional, .uint64, "topic_epoch", 5⟩,
      ⟨.optional, .bool, "producer_ready", 6⟩]
  -- 687-691 message CommandError
  | .commandError => [
      ⟨.required, .uint64, "request_id", 1⟩,
      ⟨.required, (.enum "ServerError"), "error", 2⟩,
      ⟨.required, .string, "message", 3⟩]
  -- 696-697 message CommandPing
  | .commandPing => []
  -- 698-699 message CommandPong
  | .commandPong => []
  -- 701-706 message CommandConsumerStats
  | .commandConsumerStats => [
      ⟨.required, .uint64, "request_id", 1⟩,
      ⟨.required, .uint64, "consumer_id", 4⟩]
  -- 708-751 message CommandConsumerStatsResponse
  | .commandConsumerStatsResponse => [
      ⟨.required, .uint64, "request_id", 1⟩,
      ⟨.optional, (.enum "ServerError"), "error_code", 2⟩,
      ⟨.optional, .string, "error_message", 3⟩,
      ⟨.optional, .double, "msgRateOut", 4⟩,
      ⟨.optional, .double, "msgThroughputOut", 5⟩,
      ⟨.optional, .double, "msgRateRedeliver", 6⟩,
      ⟨.optional, .string, "consumerName", 7⟩,
      ⟨.optional, .uint64, "availablePermits", 8⟩,
      ⟨.optional, .uint64, "unackedMessages", 9⟩,
      ⟨.optional, .bool, "blockedConsumerOnUnackedMsgs", 10⟩,
      ⟨.optional, .string, "address", 11⟩,
      ⟨.optional, .string, "connectedSince", 12⟩,
      ⟨.optional, .string, "type", 13⟩,
      ⟨.optional, .double, "msgRateExpired", 14⟩,
      ⟨.optional, .uint64, "msgBacklog", 15⟩,
      ⟨.optional, .double, "messageAckRate", 16⟩]
  -- 753-756 message CommandGetLastMessageId
  | .commandGetLastMessageId => [
      ⟨.required, .uint64, "consumer_id", 1⟩,
      ⟨.required, .uint64, "request_id", 2⟩]
  -- 758-762 message CommandGetLastMessageIdResponse
  | .commandGetLastMessageIdResponse => [
      ⟨.required, (.message .messageIdData), "last_message_id", 1⟩,
      ⟨.required, .uint64, "request_id", 2⟩,
      ⟨.optional, (.message .messageIdData), "consumer_mark_delete_position", 3⟩]
  -- 764-775 message CommandGetTopicsOfNamespace
  | .commandGetTopicsOfNamespace => [
      ⟨.required, .uint64, "request_id", 1⟩,
      ⟨.required, .string, "namespace", 2⟩,
      ⟨.optional, (.enum "Mode"), "mode", 3⟩,
      ⟨.optional, .string, "topics_pattern", 4⟩,
      ⟨.optional, .string, "topics_hash", 5⟩]
  -- 777-786 message CommandGetTopicsOfNamespaceResponse
  | .commandGetTopicsOfNamespaceResponse => [
      ⟨.required, .uint64, "request_id", 1⟩,
      ⟨.repeated, .string, "topics", 2⟩,
      ⟨.optional, .bool, "filtered", 3⟩,
      ⟨.optional, .string, "topics_hash", 4⟩,
      ⟨.optional, .bool, "changed", 5⟩]
  -- 788-795 message CommandWatchTopicList
  | .commandWatchTopicList => [
      ⟨.required, .uint64, "request_id", 1⟩,
      ⟨.required, .uint64, "watcher_id", 2⟩,
      ⟨.required, .string, "namespace", 3⟩,
      ⟨.required, .string, "topics_pattern", 4⟩,
      ⟨.optional, .string, "topics_hash", 5⟩]
  -- 797-802 message CommandWatchTopicListSuccess
  | .commandWatchTopicListSuccess => [
      ⟨.required, .uint64, "request_id", 1⟩,
      ⟨.required, .uint64, "watcher_id", 2⟩,
      ⟨.repeated, .string, "topic", 3⟩,
      ⟨.required, .string, "topics_hash", 4⟩]
  -- 804-809 message CommandWatchTopicUpdate
  | .commandWatchTopicUpdate => [
      ⟨.required, .uint64, "watcher_id", 1⟩,
      ⟨.repeated, .string, "new_topics", 2⟩,
      ⟨.repeated, .string, "deleted_topics", 3⟩,
      ⟨.required, .string, "topics_hash", 4⟩]
  -- 811-814 message CommandWatchTopicListClose
  | .commandWatchTopicListClose => [
      ⟨.required, .uint64, "request_id", 1⟩,
      ⟨.required, .uint64, "watcher_id", 2⟩]
  -- 816-821 message CommandGetSchema
  | .commandGetSchema => [
      ⟨.required, .uint64, "request_id", 1⟩,
      ⟨.required, .string, "topic", 2⟩,
      ⟨.optional, .bytes, "schema_version", 3⟩]
  -- 823-830 message CommandGetSchemaResponse
  | .commandGetSchemaResponse => [
      ⟨.required, .uint64, "request_id", 1⟩,
      ⟨.optional, (.enum "ServerError"), "error_code", 2⟩,
      ⟨.optional, .string, "error_message", 3⟩,
      ⟨.optional, (.message .schema), "schema", 4⟩,
      ⟨.optional, .bytes, "schema_version", 5⟩]
  -- 832-836 message CommandGetOrCreateSchema
  | .commandGetOrCreateSchema => [
      ⟨.required, .uint64, "request_id", 1⟩,
      ⟨.required, .string, "topic", 2⟩,
      ⟨.required, (.message .schema), "schema", 3⟩]
  -- 838-844 message CommandGetOrCreateSchemaResponse
  | .commandGetOrCreateSchemaResponse => [
      ⟨.required, .uint64, "request_id", 1⟩,
      ⟨.optional, (.enum "ServerError"), "error_code", 2⟩,
      ⟨.optional, .string, "error_message", 3⟩,
      ⟨.optional, .bytes, "schema_version", 4⟩]
  -- 853-856 message CommandTcClientConnectRequest
  | .commandTcClientConnectRequest => [
      ⟨.required, .uint64, "request_id", 1⟩,
      ⟨.required, .uint64, "tc_id", 2⟩]
  -- 858-862 message CommandTcClientConnectResponse
  | .commandTcClientConnectResponse => [
      ⟨.required, .uint64, "request_id", 1⟩,
      ⟨.optional, (.enum "ServerError"), "error", 2⟩,
      ⟨.optional, .string, "message", 3⟩]
  -- 864-868 message CommandNewTxn
  | .commandNewTxn => [
      ⟨.required, .uint64, "request_id", 1⟩,
      ⟨.optional, .uint64, "txn_ttl_seconds", 2⟩,
      ⟨.optional, .uint64, "tc_id", 3⟩]
  -- 870-876 message CommandNewTxnResponse
  | .commandNewTxnResponse => [
      ⟨.required, .uint64, "request_id", 1⟩,
      ⟨.optional, .uint64, "txnid_least_bits", 2⟩,
      ⟨.optional, .uint64, "txnid_most_bits", 3⟩,
      ⟨.optional, (.enum "ServerError"), "error", 4⟩,
      ⟨.optional, .string, "message", 5⟩]
  -- 878-883 message CommandAddPartitionToTxn
  | .commandAddPartitionToTxn => [
      ⟨.required, .uint64, "request_id", 1⟩,
      ⟨.optional, .uint64, "txnid_least_bits", 2⟩,
      ⟨.optional, .uint64, "txnid_most_bits", 3⟩,
      ⟨.repeated, .string, "partitions", 4⟩]
  -- 885-891 message CommandAddPartitionToTxnResponse
  | .commandAddPartitionToTxnResponse => [
      ⟨.required, .uint64, "request_id", 1⟩,
      ⟨.optional, .uint64, "txnid_least_bits", 2⟩,
      ⟨.optional, .uint64, "txnid_most_bits", 3⟩,
      ⟨.optional, (.enum "ServerError"), "error", 4⟩,
      ⟨.optional, .string, "message", 5⟩]
  -- 893-896 message Subscription
  | .subscription => [
      ⟨.required, .string, "topic", 1⟩,
      ⟨.required, .string, "subscription", 2⟩]
  -- 897-902 message CommandAddSubscriptionToTxn
  | .commandAddSubscriptionToTxn => [
      ⟨.required, .uint64, "request_id", 1⟩,
      ⟨.optional, .uint64, "txnid_least_bits", 2⟩,
      ⟨.optional, .uint64, "txnid_most_bits", 3⟩,
      ⟨.repeated, (.message .subscription), "subscription", 4⟩]
  -- 904-910 message CommandAddSubscriptionToTxnResponse
  | .commandAddSubscriptionToTxnResponse => [
      ⟨.required, .uint64, "request_id", 1⟩,
      ⟨.optional, .uint64, "txnid_least_bits", 2⟩,
      ⟨.optional, .uint64, "txnid_most_bits", 3⟩,
      ⟨.optional, (.enum "ServerError"), "error", 4⟩,
      ⟨.optional, .string, "message", 5⟩]
  -- 912-917 message CommandEndTxn
  | .commandEndTxn => [
      ⟨.required, .uint64, "request_id", 1⟩,
      ⟨.optional, .uint64, "txnid_least_bits", 2⟩,
      ⟨.optional, .uint64, "txnid_most_bits", 3⟩,
      ⟨.optional, (.enum "TxnAction"), "txn_action", 4⟩]
  -- 919-925 message CommandEndTxnResponse
  | .commandEndTxnResponse => [
      ⟨.required, .uint64, "request_id", 1⟩,
      ⟨.optional, .uint64, "txnid_least_bits", 2⟩,
      ⟨.optional, .uint64, "txnid_most_bits", 3⟩,
      ⟨.optional, (.enum "ServerError"), "error", 4⟩,
      ⟨.optional, .string, "message", 5⟩]
  -- 927-934 message CommandEndTxnOnPartition
  | .commandEndTxnOnPartition => [
      ⟨.required, .uint64, "request_id", 1⟩,
      ⟨.optional, .uint64, "txnid_least_bits", 2⟩,
      ⟨.optional, .uint64, "txnid_most_bits", 3⟩,
      ⟨.optional, .string, "topic", 4⟩,
      ⟨.optional, (.enum "TxnAction"), "txn_action", 5⟩,
      ⟨.optional, .uint64, "txnid_least_bits_of_low_watermark", 6⟩]
  -- 936-942 message CommandEndTxnOnPartitionResponse
  | .commandEndTxnOnPartitionResponse => [
      ⟨.required, .uint64, "request_id", 1⟩,
      ⟨.optional, .uint64, "txnid_least_bits", 2⟩,
      ⟨.optional, .uint64, "txnid_most_bits", 3⟩,
      ⟨.optional, (.enum "ServerError"), "error", 4⟩,
      ⟨.optional, .string, "message", 5⟩]
  -- 944-951 message CommandEndTxnOnSubscription
  | .commandEndTxnOnSubscription => [
      ⟨.required, .uint64, "request_id", 1⟩,
      ⟨.optional, .uint64, "txnid_least_bits", 2⟩,
      ⟨.optional, .uint64, "txnid_most_bits", 3⟩,
      ⟨.optional, (.message .subscription), "subscription", 4⟩,
      ⟨.optional, (.enum "TxnAction"), "txn_action", 5⟩,
      ⟨.optional, .uint64, "txnid_least_bits_of_low_watermark", 6⟩]
  -- 953-959 message CommandEndTxnOnSubscriptionResponse
  | .commandEndTxnOnSubscriptionResponse => [
      ⟨.required, .uint64, "request_id", 1⟩,
      ⟨.optional, .uint64, "txnid_least_bits", 2⟩,
      ⟨.optional, .uint64, "txnid_most_bits", 3⟩,
      ⟨.optional, (.enum "ServerError"), "error", 4⟩,
      ⟨.optional, .string, "message", 5⟩]
  -- 961-1135 message BaseCommand
  | .baseCommand => [
      ⟨.required, (.enum "Type"), "type", 1⟩,
      ⟨.optional, (.message .commandConnect), "connect", 2⟩,
      ⟨.optional, (.message .commandConnected), "connected", 3⟩,
      ⟨.optional, (.message .commandSubscribe), "subscribe", 4⟩,
      ⟨.optional, (.message .commandProducer), "producer", 5⟩,
      ⟨.optional, (.message .commandSend), "send", 6⟩,
      ⟨.optional, (.message .commandSendReceipt), "send_receipt", 7⟩,
      ⟨.optional, (.message .commandSendError), "send_error", 8⟩,
      ⟨.optional, (.message .commandMessage), "message", 9⟩,
      ⟨.optional, (.message .commandAck), "ack", 10⟩,
      ⟨.optional, (.message .commandFlow), "flow", 11⟩,
      ⟨.optional, (.message .commandUnsubscribe), "unsubscribe", 12⟩,
      ⟨.optional, (.message .commandSuccess), "success", 13⟩,
      ⟨.optional, (.message .commandError), "error", 14⟩,
      ⟨.optional, (.message .commandCloseProducer), "close_producer", 15⟩,
      ⟨.optional, (.message .commandCloseConsumer), "close_consumer", 16⟩,
      ⟨.optional, (.message .commandProducerSuccess), "producer_success", 17⟩,
      ⟨.optional, (.message .commandPing), "ping", 18⟩,
      ⟨.optional, (.message .commandPong), "pong", 19⟩,
      ⟨.optional, (.message .commandRedeliverUnacknowledgedMessages), "redeliverUnacknowledgedMessages", 20⟩,
      ⟨.optional, (.message .commandPartitionedTopicMetadata), "partitionMetadata", 21⟩,
      ⟨.optional, (.message .commandPartitionedTopicMetadataResponse), "partitionMetadataResponse", 22⟩,
      ⟨.optional, (.message .commandLookupTopic), "lookupTopic", 23⟩,
      ⟨.optional, (.message .commandLookupTopicResponse), "lookupTopicResponse", 24⟩,
      ⟨.optional, (.message .commandConsumerStats), "consumerStats", 25⟩,
      ⟨.optional, (.message .commandConsumerStatsResponse), "consumerStatsResponse", 26⟩,
      ⟨.optional, (.message .commandReachedEndOfTopic), "reachedEndOfTopic", 27⟩,
      ⟨.optional, (.message .commandSeek), "seek", 28⟩,
      ⟨.optional, (.message .commandGetLastMessageId), "getLastMessageId", 29⟩,
      ⟨.optional, (.message .commandGetLastMessageIdResponse), "getLastMessageIdResponse", 30⟩,
      ⟨.optional, (.message .commandActiveConsumerChange), "active_consumer_change", 31⟩,
      ⟨.optional, (.message .commandGetTopicsOfNamespace), "getTopicsOfNamespace", 32⟩,
      ⟨.optional, (.message .commandGetTopicsOfNamespaceResponse), "getTopicsOfNamespaceResponse", 33⟩,
      ⟨.optional, (.message .commandGetSchema), "getSchema", 34⟩,
      ⟨.optional, (.message .commandGetSchemaResponse), "getSchemaResponse", 35⟩,
      ⟨.optional, (.message .commandAuthChallenge), "authChallenge", 36⟩,
      ⟨.optional, (.message .commandAuthResponse), "authResponse", 37⟩,
      ⟨.optional, (.message .commandAckResponse), "ackResponse", 38⟩,
      ⟨.optional, (.message .commandGetOrCreateSchema), "getOrCreateSchema", 39⟩,
      ⟨.optional, (.message .commandGetOrCreateSchemaResponse), "getOrCreateSchemaResponse", 40⟩,
      ⟨.optional, (.message .commandNewTxn), "newTxn", 50⟩,
      ⟨.optional, (.message .commandNewTxnResponse), "newTxnResponse", 51⟩,
      ⟨.optional, (.message .commandAddPartitionToTxn), "addPartitionToTxn", 52⟩,
      ⟨.optional, (.message .commandAddPartitionToTxnResponse), "addPartitionToTxnResponse", 53⟩,
      ⟨.optional, (.message .commandAddSubscriptionToTxn), "addSubscriptionToTxn", 54⟩,
      ⟨.optional, (.message .commandAddSubscriptionToTxnResponse), "addSubscriptionToTxnResponse", 55⟩,
      ⟨.optional, (.message .commandEndTxn), "endTxn", 56⟩,
      ⟨.optional, (.message .commandEndTxnResponse), "endTxnResponse", 57⟩,
      ⟨.optional, (.message .commandEndTxnOnPartition), "endTxnOnPartition", 58⟩,
      ⟨.optional, (.message .commandEndTxnOnPartitionResponse), "endTxnOnPartitionResponse", 59⟩,
      ⟨.optional, (.message .commandEndTxnOnSubscription), "endTxnOnSubscription", 60⟩,
      ⟨.optional, (.message .commandEndTxnOnSubscriptionResponse), "endTxnOnSubscriptionResponse", 61⟩,
      ⟨.optional, (.message .commandTcClientConnectRequest), "tcClientConnectRequest", 62⟩,
      ⟨.optional, (.message .commandTcClientConnectResponse), "tcClientConnectResponse", 63⟩,
      ⟨.optional, (.message .commandWatchTopicList), "watchTopicList", 64⟩,
      ⟨.optional, (.message .commandWatchTopicListSuccess), "watchTopicListSuccess", 65⟩,
      ⟨.optional, (.message .commandWatchTopicUpdate), "watchTopicUpdate", 66⟩,
      ⟨.optional, (.message .commandWatchTopicListClose), "watchTopicListClose", 67⟩,
      ⟨.optional, (.message .commandTopicMigrated), "topicMigrated", 68⟩]

/-- A value of a type, as protobuf and the Rust types have it; of a nested message only that it is one. -/
def ProtoType.Holds : ProtoType → Val → Prop
  | .uint64, v => ∃ n : Nat, n < 2 ^ 64 ∧ v = .int n
  | .uint32, v => ∃ n : Nat, n < 2 ^ 32 ∧ v = .int n
  | .int64, v => ∃ n : Int, -2 ^ 63 ≤ n ∧ n < 2 ^ 63 ∧ v = .int n
  | .int32, v => ∃ n : Int, -2 ^ 31 ≤ n ∧ n < 2 ^ 31 ∧ v = .int n
  | .enum _, v => ∃ n : Int, -2 ^ 31 ≤ n ∧ n < 2 ^ 31 ∧ v = .int n
  | .bool, v => v = .int 0 ∨ v = .int 1
  | .double, v => ∃ n, n < 2 ^ 64 ∧ v = .dbl n
  | .string, v => ∃ s, v = .str s
  | .bytes, v => ∃ b, v = .byt b
  | .message _, v => ∃ m, v = .msg m

/-- A message of type `t` as the definition has it, nested at most `k` deep: one list of values for each declared field; a required field
has a value; only a repeated one has more than one; the values are of the declared type, nested messages again as defined. -/
def Conforms : Nat → MsgTy → Msg → Prop
  | 0, _, _ => False
  | k + 1, t, m => m.length = (definition t).length ∧
    ∀ (i : Nat) (f : ProtoField) (vs : List Val), (definition t)[i]? = some f → m[i]? = some vs →
      (f.label = .required → vs ≠ []) ∧ (f.label ≠ .repeated → vs.length ≤ 1) ∧ (∀ v ∈ vs, f.type.Holds v) ∧
      ∀ (t' : MsgTy) (m' : Msg), f.type = .message t' → .msg m' ∈ vs → Conforms k t' m'

/-- How a type is encoded. -/
def ProtoType.kind : ProtoType → Kind
  | .uint64 => .u64
  | .int64 => .i64
  | .int32 => .i32
  | .uint32 => .u32
  | .bool => .bool
  | .double => .dbl
  | .string => .str
  | .bytes => .byt
  | .enum _ => .enum
  | .message t => .msg t

/-- The definition as a list of numbered fields, as `Spec/ProtoFormat.lean` takes it. -/
def defined : Schema := fun t => (definition t).map fun f => ⟨f.number, f.label, f.type.kind⟩

end Neutron.Proto

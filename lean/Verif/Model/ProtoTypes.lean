/-!
# Message types of `src/protos/pulsar.proto`

Generated mechanically from the .proto file: one constructor per message, in file order.
-/

namespace Neutron.Proto

/-- The message types declared in `src/protos/pulsar.proto`. -/
inductive MsgTy where
  | schema
  | messageIdData
  | keyValue
  | keyLongValue
  | intRange
  | encryptionKeys
  | messageMetadata
  | singleMessageMetadata
  | brokerEntryMetadata
  | commandConnect
  | featureFlags
  | commandConnected
  | commandAuthResponse
  | commandAuthChallenge
  | authData
  | keySharedMeta
  | commandSubscribe
  | commandPartitionedTopicMetadata
  | commandPartitionedTopicMetadataResponse
  | commandLookupTopic
  | commandLookupTopicResponse
  | commandProducer
  | commandSend
  | commandSendReceipt
  | commandSendError
  | commandMessage
  | commandAck
  | commandAckResponse
  | commandActiveConsumerChange
  | commandFlow
  | commandUnsubscribe
  | commandSeek
  | commandReachedEndOfTopic
  | commandTopicMigrated
  | commandCloseProducer
  | commandCloseConsumer
  | commandRedeliverUnacknowledgedMessages
  | commandSuccess
  | commandProducerSuccess
  | commandError
  | commandPing
  | commandPong
  | commandConsumerStats
  | commandConsumerStatsResponse
  | commandGetLastMessageId
  | commandGetLastMessageIdResponse
  | commandGetTopicsOfNamespace
  | commandGetTopicsOfNamespaceResponse
  | commandWatchTopicList
  | commandWatchTopicListSuccess
  | commandWatchTopicUpdate
  | commandWatchTopicListClose
  | commandGetSchema
  | commandGetSchemaResponse
  | commandGetOrCreateSchema
  | commandGetOrCreateSchemaResponse
  | commandTcClientConnectRequest
  | commandTcClientConnectResponse
  | commandNewTxn
  | commandNewTxnResponse
  | commandAddPartitionToTxn
  | commandAddPartitionToTxnResponse
  | subscription
  | commandAddSubscriptionToTxn
  | commandAddSubscriptionToTxnResponse
  | commandEndTxn
  | commandEndTxnResponse
  | commandEndTxnOnPartition
  | commandEndTxnOnPartitionResponse
  | commandEndTxnOnSubscription
  | commandEndTxnOnSubscriptionResponse
  | baseCommand
  deriving DecidableEq, Repr

end Neutron.Proto

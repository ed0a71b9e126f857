import Verif.Model.Bytes
import Verif.Lemmas.Bytes
import Verif.Model.Distance
import Verif.Lemmas.Distance
import Verif.Props.Distance
import Verif.Model.Payload
import Verif.Lemmas.Payload
import Verif.Props.Payload
import Verif.Model.AcceptCode
import Verif.Lemmas.AcceptCode
import Verif.Props.AcceptCode
import Verif.Model.Nibbles
import Verif.Lemmas.Nibbles
import Verif.Props.Nibbles
import Verif.Model.ContentId
import Verif.Lemmas.ContentId
import Verif.Props.ContentId
import Verif.Model.NodeId
import Verif.Lemmas.NodeId
import Verif.Props.NodeId
import Verif.Model.FindNodeDistances
import Verif.Lemmas.FindNodeDistances
import Verif.Props.FindNodeDistances
import Verif.Model.Versions
import Verif.Lemmas.Versions
import Verif.Props.Versions
import Verif.Model.Capacity
import Verif.Props.Capacity
import Verif.Model.StoreVersion
import Verif.Props.StoreVersion
import Verif.Model.ChainHead
import Verif.Props.ChainHead
import Verif.Model.Epochs
import Verif.Props.Epochs
import Verif.Model.Hex
import Verif.Props.Hex
import Verif.Model.Census
import Verif.Props.Census
import Verif.Model.Ssz
import Verif.Lemmas.Ssz
import Verif.Model.Wire
import Verif.Lemmas.Wire
import Verif.Props.Wire
import Verif.Model.Sort
import Verif.Lemmas.Sort
import Verif.Model.KBucket
import Verif.Lemmas.KBucket
import Verif.Props.Replies
import Verif.Model.ContentKey
import Verif.Lemmas.ContentKey
import Verif.Props.ContentKey
import Verif.Model.Semaphore
import Verif.Props.Slots
import Verif.Model.PingExt
import Verif.Lemmas.PingExt
import Verif.Model.Ping
import Verif.Lemmas.Ping
import Verif.Props.Ping
import Verif.Props.ContentKeyFormat
import Verif.Props.ContentKeyIds
import Verif.Model.Merkle
import Verif.Props.MerkleSpec
import Verif.Lemmas.Merkle
import Verif.Props.Merkle
import Verif.Model.HeaderValidator
import Verif.Lemmas.HeaderValidator
import Verif.Props.PreMerge
import Verif.Props.Summaries
import Verif.Props.PostMerge
import Verif.Props.BuiltProofs
import Verif.Lemmas.ExceptEq
import Verif.Model.Trie
import Verif.Props.TrieSpec
import Verif.Lemmas.Trie
import Verif.Props.Trie
import Verif.Model.StateContent
import Verif.Lemmas.StateContent
import Verif.Props.StateContent
import Verif.Model.E2store
import Verif.Lemmas.E2store
import Verif.Props.E2store
import Verif.Model.Archive
import Verif.Lemmas.Archive
import Verif.Props.Archive
import Verif.Model.LightClient
import Verif.Lemmas.LightClient
import Verif.Props.LightClient
import Verif.Model.Store
import Verif.Lemmas.Store
import Verif.Props.Store
import Verif.Model.Query
import Verif.Model.QueryPool
import Verif.Props.QuerySpec
import Verif.Lemmas.Query
import Verif.Lemmas.QueryFinish
import Verif.Lemmas.QueryContent
import Verif.Lemmas.QueryPar
import Verif.Lemmas.QueryWon
import Verif.Lemmas.QueryPool
import Verif.Props.QueryPoolSpec
import Verif.Lemmas.QueryPoolRun
import Verif.Props.Query
import Verif.Props.QueryContent
import Verif.Props.QueryPool
import Verif.Props.QueryProgress
import Verif.Model.AcceptQueue
import Verif.Model.Offer
import Verif.Props.AcceptQueueSpec
import Verif.Props.OfferSpec
import Verif.Lemmas.AcceptQueue
import Verif.Lemmas.Offer
import Verif.Lemmas.OfferTask
import Verif.Props.AcceptQueue
import Verif.Props.Offer
import Verif.Props.OfferTask
import Verif.Model.Gossip
import Verif.Props.GossipSpec
import Verif.Lemmas.Gossip
import Verif.Props.Gossip
import Verif.Model.BeaconStore
import Verif.Props.BeaconStoreSpec
import Verif.Lemmas.BeaconStore
import Verif.Props.BeaconStore
import Verif.Model.SszTypes
import Verif.Lemmas.SszTypes
import Verif.Model.BeaconValue
import Verif.Lemmas.BeaconValue
import Verif.Props.BeaconValueSpec
import Verif.Lemmas.BeaconFormat
import Verif.Props.BeaconValue
import Verif.Model.BeaconValidator
import Verif.Props.BeaconValidatorSpec
import Verif.Lemmas.BeaconValidator
import Verif.Props.BeaconValidator
import Verif.Model.StateStore
import Verif.Lemmas.StateStore
import Verif.Props.StateStore
import Verif.Model.HistoryValue
import Verif.Props.HistoryValueSpec
import Verif.Lemmas.HistoryValue
import Verif.Props.HistoryValue
import Verif.Model.HistoryValidator
import Verif.Props.HistoryValidatorSpec
import Verif.Lemmas.HistoryValidator
import Verif.Props.HistoryValidator
import Verif.Model.EvmState
import Verif.Props.EvmStateSpec
import Verif.Lemmas.EvmState
import Verif.Props.EvmState
import Verif.Model.EthRpc
import Verif.Props.EthRpcSpec
import Verif.Lemmas.EthRpc
import Verif.Props.EthRpc
import Verif.Model.Routing
import Verif.Props.RoutingSpec
import Verif.Lemmas.Routing
import Verif.Props.Routing
import Verif.Model.TrieWalker
import Verif.Props.TrieWalkerSpec
import Verif.Lemmas.TrieWalker
import Verif.Lemmas.TrieFilter
import Verif.Lemmas.TrieSnapshot
import Verif.Lemmas.TrieItems
import Verif.Props.TrieWalker
import Verif.Model.EvmDb
import Verif.Props.EvmDbSpec
import Verif.Lemmas.EvmDb
import Verif.Props.EvmDb
import Verif.Model.StateDiff
import Verif.Props.StateDiffSpec
import Verif.Lemmas.StateDiff
import Verif.Lemmas.DiffCache
import Verif.Props.StateDiff
import Verif.Model.Execution
import Verif.Props.ExecutionSpec
import Verif.Lemmas.Execution
import Verif.Props.Execution
import Verif.Model.BlockExecutor
import Verif.Props.BlockExecutorSpec
import Verif.Lemmas.BlockExecutor
import Verif.Props.BlockExecutor
import Verif.Model.Ephemeral
import Verif.Props.EphemeralSpec
import Verif.Lemmas.Ephemeral
import Verif.Props.Ephemeral
import Verif.Model.ExecBuilder
import Verif.Props.ExecBuilderSpec
import Verif.Props.ExecBuilder
import Verif.Model.E2hsGen
import Verif.Props.E2hsGenSpec
import Verif.Lemmas.E2hsGen
import Verif.Lemmas.E2hsGenComplete
import Verif.Props.E2hsGen
import Verif.Model.HeadGen
import Verif.Props.HeadGenSpec
import Verif.Lemmas.HeadGenNames
import Verif.Lemmas.HeadGen
import Verif.Lemmas.HeadGenSys
import Verif.Lemmas.HeadGenComplete
import Verif.Props.HeadGen
import Verif.Model.Overlay
import Verif.Props.OverlaySpec
import Verif.Lemmas.Overlay
import Verif.Lemmas.OverlayMatch
import Verif.Props.Overlay
import Verif.Model.Events
import Verif.Props.EventsSpec
import Verif.Lemmas.Events
import Verif.Props.Events
import Verif.Model.NodeConfig
import Verif.Props.NodeConfigSpec
import Verif.Lemmas.NodeConfig
import Verif.Props.NodeConfig
import Verif.Model.BridgeCli
import Verif.Props.BridgeCliSpec
import Verif.Lemmas.BridgeCli
import Verif.Props.BridgeCli
import Verif.Model.BeaconBridge
import Verif.Props.BeaconBridgeSpec
import Verif.Lemmas.BeaconBridgeGuard
import Verif.Lemmas.BeaconBridge
import Verif.Props.BeaconBridge
import Verif.Model.E2hsBridge
import Verif.Props.E2hsBridgeSpec
import Verif.Lemmas.E2hsBridge
import Verif.Lemmas.E2hsBridgeRun
import Verif.Lemmas.E2hsBridgeLive
import Verif.Lemmas.E2hsBridgeParts
import Verif.Props.E2hsBridge
import Verif.Model.DataDir
import Verif.Props.DataDirSpec
import Verif.Lemmas.DataDir
import Verif.Props.DataDir
import Verif.Model.Era
import Verif.Props.EraSpec
import Verif.Lemmas.Era
import Verif.Props.Era
import Verif.Model.E2ss
import Verif.Props.E2ssSpec
import Verif.Lemmas.E2ss
import Verif.Lemmas.E2ssWrite
import Verif.Lemmas.E2ssImport
import Verif.Lemmas.E2ssState
import Verif.Lemmas.E2ssExport
import Verif.Props.E2ss
import Verif.Model.Lookup
import Verif.Props.LookupSpec
import Verif.Lemmas.LookupTrace
import Verif.Lemmas.Lookup
import Verif.Lemmas.LookupInv
import Verif.Lemmas.LookupRun
import Verif.Lemmas.LookupPoke
import Verif.Props.Lookup
import Verif.Model.JsonRpc
import Verif.Props.JsonRpcSpec
import Verif.Lemmas.JsonRpc
import Verif.Props.JsonRpc
import Verif.Model.LightNode
import Verif.Props.LightNodeSpec
import Verif.Lemmas.LightNode
import Verif.Lemmas.LightNodePortal
import Verif.Props.LightNode
import Verif.Model.NodeLookup
import Verif.Props.NodeLookupSpec
import Verif.Lemmas.NodeLookup
import Verif.Props.NodeLookup
import Verif.Model.CensusNetwork
import Verif.Props.CensusNetworkSpec
import Verif.Lemmas.CensusNetwork
import Verif.Lemmas.CensusNetwork2
import Verif.Lemmas.CensusNetwork3
import Verif.Props.CensusNetwork
import Verif.Model.Gossiper
import Verif.Props.GossiperSpec
import Verif.Lemmas.Gossiper
import Verif.Lemmas.Gossiper2
import Verif.Lemmas.Gossiper3
import Verif.Lemmas.Gossiper4
import Verif.Lemmas.Gossiper5
import Verif.Props.Gossiper
import Verif.Model.Provider
import Verif.Props.ProviderSpec
import Verif.Lemmas.Provider
import Verif.Lemmas.ProviderText
import Verif.Props.Provider
import Verif.Model.OwnRecord
import Verif.Props.OwnRecordSpec
import Verif.Lemmas.OwnRecord
import Verif.Props.OwnRecord
import Verif.Model.Streams
import Verif.Props.StreamsSpec
import Verif.Lemmas.Streams
import Verif.Props.Streams
import Verif.Model.HistoryNode
import Verif.Props.HistoryNodeSpec
import Verif.Lemmas.HistoryNode
import Verif.Props.HistoryNode
import Verif.Model.StateBridge
import Verif.Props.StateBridgeSpec
import Verif.Lemmas.StateBridge
import Verif.Props.StateBridge
import Verif.Model.BeaconNode
import Verif.Props.BeaconNodeSpec
import Verif.Lemmas.BeaconNode
import Verif.Props.BeaconNode
import Verif.Model.StateNode
import Verif.Props.StateNodeSpec
import Verif.Lemmas.StateNode
import Verif.Lemmas.StateNodeFeed
import Verif.Props.StateNode
import Verif.Model.Exchange
import Verif.Props.ExchangeSpec
import Verif.Lemmas.Exchange
import Verif.Props.Exchange
import Verif.Props.ArchiveFlowSpec
import Verif.Lemmas.ArchiveFlow
import Verif.Props.ArchiveFlow
import Verif.Props.StateFlowSpec
import Verif.Props.StateFlow
import Verif.Props.BeaconFlowSpec
import Verif.Lemmas.BeaconFlow
import Verif.Props.BeaconFlow
import Verif.Model.FullNode
import Verif.Props.FullNodeSpec
import Verif.Lemmas.FullNode
import Verif.Props.FullNode
import Verif.Model.EthCall
import Verif.Props.EthCallSpec
import Verif.Lemmas.EthCall
import Verif.Props.EthCall
import Verif.Props.FullNodeCall
import Verif.Model.Rlp
import Verif.Model.ProtocolInfo
import Verif.Props.ProtocolInfoSpec
import Verif.Lemmas.Rlp
import Verif.Props.ProtocolInfo
import Verif.Model.HistoryContent
import Verif.Props.HistoryContentSpec
import Verif.Lemmas.HistoryContent
import Verif.Props.HistoryContent
import Verif.Model.TreeHash
import Verif.Model.BeaconBlock
import Verif.Lemmas.TreeHash
import Verif.Lemmas.BeaconBlock
import Verif.Props.BeaconBlockSpec
import Verif.Lemmas.BeaconBlockLayout
import Verif.Lemmas.BeaconBlockHash
import Verif.Props.BeaconBlock
import Verif.Model.BeaconState
import Verif.Lemmas.BeaconState
import Verif.Props.BeaconStateSpec
import Verif.Lemmas.BeaconStateLayout
import Verif.Lemmas.BeaconStateHash
import Verif.Props.BeaconState
import Verif.Model.LcJson
import Verif.Props.LcJsonSpec
import Verif.Lemmas.LcJson
import Verif.Props.LcJson
import Verif.Model.Double
import Verif.Lemmas.Double
import Verif.Props.PruningSpec
import Verif.Props.Pruning
import Verif.Model.BlockJson
import Verif.Props.BlockJsonSpec
import Verif.Lemmas.BlockJson
import Verif.Props.BlockJson
import Verif.Model.StateJson
import Verif.Props.StateJsonSpec
import Verif.Lemmas.StateJson
import Verif.Props.StateJson
import Verif.Model.Nimbus
import Verif.Props.NimbusSpec
import Verif.Lemmas.Nimbus
import Verif.Props.Nimbus
import Verif.Model.RpcServers
import Verif.Props.RpcServersSpec
import Verif.Lemmas.RpcServers
import Verif.Props.RpcServers
import Verif.Model.ExecTraces
import Verif.Props.ExecTracesSpec
import Verif.Lemmas.ExecTraces
import Verif.Props.ExecTraces
import Verif.Model.E2ssStats
import Verif.Props.E2ssStatsSpec
import Verif.Lemmas.E2ssStats
import Verif.Props.E2ssStats
import Verif.Model.SlotClock
import Verif.Props.SlotClockSpec
import Verif.Props.SlotClock
import Verif.Model.Reports
import Verif.Props.ReportsSpec
import Verif.Lemmas.Reports
import Verif.Props.Reports
import Verif.Model.OfferSummary
import Verif.Props.OfferSummarySpec
import Verif.Lemmas.OfferSummary
import Verif.Props.OfferSummary

import Verif.Base.Bits
import Verif.Base.Cx
import Verif.Base.F32
import Verif.Base.Locked
import Verif.Base.Parse
import Verif.Base.ParseWP
import Verif.Base.Res
import Verif.Lemma.AllocationSearch
import Verif.Lemma.BitByte
import Verif.Lemma.BufferTx
import Verif.Lemma.BufferTxData
import Verif.Lemma.BufferTxWake
import Verif.Lemma.Cells
import Verif.Lemma.CellsPcc
import Verif.Lemma.CellsPdc
import Verif.Lemma.CellsSize
import Verif.Lemma.CellsWalk
import Verif.Lemma.ChScan
import Verif.Lemma.Channel
import Verif.Lemma.ChunkSearch
import Verif.Lemma.Codebook
import Verif.Lemma.Combine
import Verif.Lemma.CombineLoop
import Verif.Lemma.Decoder
import Verif.Lemma.Enum
import Verif.Lemma.Fec
import Verif.Lemma.FecDec
import Verif.Lemma.FecEnc
import Verif.Lemma.Feedback
import Verif.Lemma.FineSync
import Verif.Lemma.MacHeader
import Verif.Lemma.MimoEst
import Verif.Lemma.Mmh
import Verif.Lemma.Modulate
import Verif.Lemma.Movsum
import Verif.Lemma.OfdmBeam
import Verif.Lemma.OfdmMem
import Verif.Lemma.OfdmPacket
import Verif.Lemma.OfdmSymbol
import Verif.Lemma.OfdmWave
import Verif.Lemma.P2p
import Verif.Lemma.P2pStop
import Verif.Lemma.P2pStopLive
import Verif.Lemma.PacketSizes
import Verif.Lemma.PacketSizes2
import Verif.Lemma.Plcf
import Verif.Lemma.Rtt
import Verif.Lemma.RxFlow
import Verif.Lemma.RxFlowLoops
import Verif.Lemma.RxFlowPacket
import Verif.Lemma.SimChannel
import Verif.Lemma.Split
import Verif.Lemma.SymbolMap
import Verif.Lemma.TimeBase
import Verif.Model.Agc
import Verif.Model.Allocation
import Verif.Model.AppClient
import Verif.Model.AssociationRequest
import Verif.Model.AssociationResponse
import Verif.Model.Baton
import Verif.Model.Bimap
import Verif.Model.BitByte
import Verif.Model.BroadcastIndication
import Verif.Model.BufferRx
import Verif.Model.BufferTx
import Verif.Model.Callbacks
import Verif.Model.Capability
import Verif.Model.Cells
import Verif.Model.ChScan
import Verif.Model.Channel
import Verif.Model.ChunkSearch
import Verif.Model.ClusterBeacon
import Verif.Model.Codebook
import Verif.Model.Combine
import Verif.Model.ContactList
import Verif.Model.Decoder
import Verif.Model.Duration
import Verif.Model.Encoder
import Verif.Model.Enum
import Verif.Model.Fec
import Verif.Model.Feedback
import Verif.Model.FineSync
import Verif.Model.FixedMessages
import Verif.Model.GainLut
import Verif.Model.HarqPool
import Verif.Model.Identity
import Verif.Model.IrregularQueue
import Verif.Model.JobQueue
import Verif.Model.LinkAdapt
import Verif.Model.LoadInfo
import Verif.Model.MacHeader
import Verif.Model.MimoEst
import Verif.Model.Mmh
import Verif.Model.Movsum
import Verif.Model.NetworkBeacon
import Verif.Model.Ofdm
import Verif.Model.P2p
import Verif.Model.P2pData
import Verif.Model.P2pStop
import Verif.Model.PacketSizes
import Verif.Model.Padding
import Verif.Model.Pcc
import Verif.Model.Plcf
import Verif.Model.Queue
import Verif.Model.RandomAccess
import Verif.Model.Reconfiguration
import Verif.Model.Resampler
import Verif.Model.ResourceAllocation
import Verif.Model.Rtt
import Verif.Model.RxFlow
import Verif.Model.RxPacer
import Verif.Model.Scrambling
import Verif.Model.SimChannel
import Verif.Model.SimTx
import Verif.Model.SymbolMap
import Verif.Model.SyncWorker
import Verif.Model.TimeBase
import Verif.Model.Token
import Verif.Model.Vspace
import Verif.Props.C01_Feedback
import Verif.Props.C02_Plcf
import Verif.Props.C03_MacHeader
import Verif.Props.C04_MuxHeader
import Verif.Props.C05_Padding
import Verif.Props.C06_Decoder
import Verif.Props.C08_Pdu
import Verif.Props.C09_ClusterBeacon
import Verif.Props.C10_NetworkBeacon
import Verif.Props.C12_AssociationRequest
import Verif.Props.C13_Queue
import Verif.Props.C14_Bimap
import Verif.Props.C15_Callbacks
import Verif.Props.C16_JobQueue
import Verif.Props.C17_IrregularQueue
import Verif.Props.C18_Token
import Verif.Props.C19_Baton
import Verif.Props.C20_HarqPool
import Verif.Props.C21_BufferTx
import Verif.Props.C22_BufferRx
import Verif.Props.C23_RxPacer
import Verif.Props.C24_Tbs
import Verif.Props.C26_MaxPacketSizes
import Verif.Props.C27_Decoder
import Verif.Props.C28_Encoder
import Verif.Props.C29_Harq
import Verif.Props.C30_Cells
import Verif.Props.C31_Duration
import Verif.Props.C32_Resources
import Verif.Props.C33_TxOpportunity
import Verif.Props.C34_Pll
import Verif.Props.C34_TimeBase
import Verif.Props.C35_Channel
import Verif.Props.C36_ContactList
import Verif.Props.C37_Identity
import Verif.Props.C38_ByteOrder
import Verif.Props.C39_Scrambling
import Verif.Props.C40_Correlation
import Verif.Props.C41_GainControl
import Verif.Props.C42_Quantisation
import Verif.Props.C43_PlcfDecoder
import Verif.Props.C44_GainLut
import Verif.Props.C45_FixedMessages
import Verif.Props.C46_HeaderPointers
import Verif.Props.C47_Resampler
import Verif.Props.C48_P2pResources
import Verif.Props.C49_FtSchedule
import Verif.Props.C50_PtSchedule
import Verif.Props.C51_UserData
import Verif.Props.C52_AppClient
import Verif.Props.C53_ResourceAllocation
import Verif.Props.C54_RandomAccess
import Verif.Props.C55_AssociationResponse
import Verif.Props.C56_Reconfiguration
import Verif.Props.C57_Capability
import Verif.Props.C58_LoadInfo
import Verif.Props.C59_BroadcastIndication
import Verif.Props.C60_Neighbouring
import Verif.Props.C61_Vspace
import Verif.Props.C62_Graph
import Verif.Props.C63_SimTx
import Verif.Props.C64_SyncWorker
import Verif.Props.C65_ChunkSearch
import Verif.Props.C66_Pcc
import Verif.Props.C67_SymbolMap
import Verif.Props.C68_RxFlow
import Verif.Props.C69_Combine
import Verif.Props.C70_Ofdm
import Verif.Props.C71_Codebook
import Verif.Props.C72_LinkAdapt
import Verif.Props.C73_MimoEst
import Verif.Props.C74_SimChannel
import Verif.Props.C75_P2pStop
import Verif.Props.C76_ChScan
import Verif.Props.C77_FineSync
import Verif.Props.C78_Rtt
import Verif.Spec.Allocation
import Verif.Spec.BufferTx
import Verif.Spec.Cells
import Verif.Spec.ChScan
import Verif.Spec.Channel
import Verif.Spec.ChunkSearch
import Verif.Spec.Codebook
import Verif.Spec.Combine
import Verif.Spec.ContactList
import Verif.Spec.Duration
import Verif.Spec.Fec
import Verif.Spec.Feedback
import Verif.Spec.Fifo
import Verif.Spec.FineSync
import Verif.Spec.GainLut
import Verif.Spec.LinkAdapt
import Verif.Spec.MacPdu
import Verif.Spec.MimoEst
import Verif.Spec.Movsum
import Verif.Spec.Ofdm
import Verif.Spec.P2pStop
import Verif.Spec.PacketSizes
import Verif.Spec.PartialMap
import Verif.Spec.Pending
import Verif.Spec.Resampler
import Verif.Spec.Rtt
import Verif.Spec.RxFlow
import Verif.Spec.SimChannel
import Verif.Spec.SymbolMap
import Verif.Spec.TxPower

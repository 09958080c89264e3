import Verif.TextProps
import Verif.Mem.Props
import Verif.Msg.Props
import Verif.Msg.Props2
import Verif.Msg.HeapProps
import Verif.Server.Props
import Verif.Server.Props2
import Verif.Server.Props3
import Verif.Server.Props4
import Verif.Server.Props5
import Verif.Server.Props6
import Verif.Client.Props
import Verif.Client.Props2
import Verif.Client.Props3
import Verif.Client.Props4
import Verif.DataBuf.Props
import Verif.Uri.Props
import Verif.Http.Props
import Verif.Http.Props2
import Verif.Http.PropsNever
import Verif.Http.PropsChunk
import Verif.Cross.Props
import Verif.Cross.Props2
import Verif.Cross.Props3
import Verif.Cross.Props4
import Verif.Config.Props
import Verif.Proxy.Props
import Verif.Proxy.Props2
import Verif.Proxy.PropsNever
import Verif.Proxy.Props3
import Verif.Proxy.PropsConn
import Verif.Tls.Props
import Verif.Tls.PropsClient
import Verif.Res.Props
import Verif.Res.PropsAuth
import Verif.Res.PropsProxy
import Verif.Res.PropsMain
import Verif.EndToEnd.Props
import Verif.EndToEnd.Props2
import Verif.EndToEnd.PropsPlain
import Verif.Param.Props
import Verif.Proxy.PropsEnd
import Verif.Sample.Props
import Verif.Sample.PropsReg
import Verif.Sample.PropsTransfer
import Verif.Sample.PropsTime
import Verif.Proxy.PropsLink
import Verif.Tls.PropsIo
import Verif.Server.PropsDtls
import Verif.Client.PropsDtls
import Verif.Server.PropsRecords
import Verif.Mem.PropsThreads
import Verif.EndToEnd.PropsLive
import Verif.EndToEnd.SpecTurns
import Verif.EndToEnd.LemmasTurns
import Verif.EndToEnd.PropsTurns
import Verif.EndToEnd.SpecTurnsUp
import Verif.EndToEnd.LemmasTurnsUp
import Verif.EndToEnd.PropsTurnsUp
import Verif.Server.LemmasReply
import Verif.EndToEnd.SpecTurnsBoth
import Verif.EndToEnd.LemmasTurnsBoth
import Verif.EndToEnd.PropsTurnsBoth
import Verif.Server.SpecAnswered
import Verif.Server.LemmasAnswered
import Verif.Server.PropsAnswered
import Verif.Proxy.ModelStats
import Verif.Proxy.SpecStats
import Verif.Proxy.LemmasStats
import Verif.Proxy.PropsStats
import Verif.Proxy.SpecReply
import Verif.Proxy.LemmasReply
import Verif.Proxy.PropsReply
import Verif.EndToEnd.SpecContinue
import Verif.EndToEnd.LemmasContinue
import Verif.EndToEnd.PropsContinue
import Verif.Proxy.SpecBlocks
import Verif.Proxy.LemmasBlocks
import Verif.Proxy.PropsBlocks
import Verif.EndToEnd.PropsReach
import Verif.Proxy.SpecUpload
import Verif.Proxy.LemmasUpload
import Verif.Proxy.PropsUpload
import Verif.Proxy.SpecConverse
import Verif.Proxy.PropsConverse
import Verif.Proxy.SpecRetry
import Verif.Proxy.PropsRetry
import Verif.Util.Spec
import Verif.Util.Props
import Verif.Proxy.SpecLost
import Verif.Proxy.PropsLost
import Verif.EndToEnd.SpecDtls
import Verif.EndToEnd.PropsDtls
import Verif.Proxy.ModelReason
import Verif.Proxy.SpecReason
import Verif.Proxy.PropsReason
import Verif.Client.SpecAny
import Verif.Client.PropsAny
import Verif.Client.SpecEnds
import Verif.Client.LemmasEnds
import Verif.Client.PropsEnds
import Verif.Server.SpecRfc
import Verif.Server.PropsRfc
import Verif.Client.SpecFollows
import Verif.Client.PropsFollows
import Verif.EndToEnd.PropsFollows
import Verif.Server.SpecAnew
import Verif.Server.PropsAnew
import Verif.Server.SpecVary
import Verif.Server.PropsVary
import Verif.Server.ModelSep
import Verif.Server.SpecSep
import Verif.Server.PropsSep
import Verif.Msg.LemmasHeapUse
import Verif.Server.ModelBuf
import Verif.Server.SpecBuf
import Verif.Server.LemmasBuf
import Verif.Server.PropsBuf
import Verif.Client.ModelBuf
import Verif.Client.SpecBuf
import Verif.Client.PropsBuf
import Verif.Server.SpecEnough
import Verif.Msg.LemmasHeapPlenty
import Verif.Server.LemmasEnough
import Verif.Server.PropsEnough
import Verif.Client.SpecEnough
import Verif.Client.LemmasEnough
import Verif.Client.PropsEnough
import Verif.Proxy.ModelFds
import Verif.Proxy.SpecFds
import Verif.Proxy.LemmasFds
import Verif.Proxy.PropsFds
import Verif.Client.ModelDtlsBlock
import Verif.Client.SpecDtlsBlock
import Verif.Client.PropsDtlsBlock
import Verif.EndToEnd.SpecDtlsBlock
import Verif.EndToEnd.PropsDtlsBlock
import Verif.Client.ModelDtlsLife
import Verif.Client.SpecDtlsLife
import Verif.Client.LemmasDtlsLife
import Verif.Client.PropsDtlsLife
import Verif.Sample.ModelBuf
import Verif.Sample.SpecBuf
import Verif.Sample.PropsBuf
import Verif.Res.ModelSample
import Verif.Res.LemmasSample
import Verif.Res.PropsSample
import Verif.Server.ModelFds
import Verif.Server.SpecFds
import Verif.Server.PropsFds
import Verif.EndToEnd.SpecSession
import Verif.EndToEnd.PropsSession
import Verif.EndToEnd.SpecLossy
import Verif.EndToEnd.PropsLossy
import Verif.EndToEnd.SpecMixed
import Verif.EndToEnd.PropsMixed
import Verif.Server.SpecSimple
import Verif.Server.PropsSimple
import Verif.Proxy.PropsLimits
import Verif.Server.SpecMachine
import Verif.Server.LemmasOdd
import Verif.Server.LemmasMachine
import Verif.Server.PropsMachine
import Verif.Server.PropsForget
import Verif.Server.SpecEcho
import Verif.Server.LemmasEcho
import Verif.Server.PropsEcho

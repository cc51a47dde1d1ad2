import Verif.Codec
import Verif.Spec
import Verif.WireLemmas
import Verif.DecodeLemmas
import Verif.EncodeLemmas
import Verif.KeyLemmas
import Verif.Objects
import Verif.EqLemmas
import Verif.PropsScalar
import Verif.RecordLemmas
import Verif.FailLemmas
import Verif.AssignLemmas
import Verif.ArriveLemmas
import Verif.SerializeLemmas
import Verif.SafeLemmas
import Verif.PropsMessage
import Verif.FieldLemmas
import Verif.PropsRecords
import Verif.PropsEq
import Verif.PropsSetters
import Verif.UbConverse
import Verif.PropsBytes
import Verif.SelfCheck
import Verif.PropsIterator
import Verif.Reference
import Verif.RefLemmas
import Verif.PropsReference
import Verif.Registry
import Verif.SpecRegistry
import Verif.RegistryLemmas
import Verif.PropsRegistry
import Verif.TypeReg
import Verif.PropsTypeReg
import Verif.Plugins
import Verif.SpecPlugins
import Verif.PropsPlugins
import Verif.PropsBoolList
import Verif.Http2
import Verif.SpecHttp2
import Verif.Http2Lemmas
import Verif.PropsHttp2
import Verif.Call
import Verif.PropsCall
import Verif.Stream
import Verif.SpecStream
import Verif.StreamLemmas
import Verif.StreamLemmas2
import Verif.PropsStream
import Verif.Timestamp
import Verif.PropsTimestamp
import Verif.Credentials
import Verif.PropsCredentials
import Verif.QmlList
import Verif.PropsQmlList
import Verif.QuickStream
import Verif.PropsQuickStream
import Verif.Json
import Verif.SpecJson
import Verif.SpecJsonMsg
import Verif.JsonLemmas
import Verif.PropsJson
import Verif.QtTypes
import Verif.SpecQtTypes
import Verif.QtTypeLemmas
import Verif.PropsQtTypes
import Verif.GenText
import Verif.PropsOptions
import Verif.Gen
import Verif.SpecGen
import Verif.GenLemmas
import Verif.PropsGenTree
import Verif.PropsGenClass
import Verif.GenNames
import Verif.SpecNames
import Verif.NameLemmas
import Verif.PropsGenNames
import Verif.PropsCompare
import Verif.Move
import Verif.SpecMove
import Verif.MoveLemmas
import Verif.PropsMove
import Verif.Lifetime
import Verif.PropsLifetime
import Verif.GenFiles
import Verif.SpecFiles
import Verif.FilesLemmas
import Verif.PropsGenFiles
import Verif.PropsGenIncludes
import Verif.PropsGenSingle
import Verif.PropsGenSingleClient
import Verif.GenClient
import Verif.SpecClient
import Verif.PropsGenClient
import Verif.GenMembers
import Verif.SpecMembers
import Verif.PropsGenCtor
import Verif.PropsGenWords
import Verif.PropsGenScope
import Verif.JsonRead
import Verif.SpecJsonRead
import Verif.JsonReadLemmas
import Verif.JsonTripLemmas
import Verif.JsonReadDemo
import Verif.PropsJsonRead
import Verif.PropsJsonSafe
import Verif.SpecInterop
import Verif.InteropLemmas
import Verif.PropsInterop
import Verif.Replies
import Verif.SpecReplies
import Verif.RepliesLemmas
import Verif.PropsReplies
import Verif.Native
import Verif.SpecNative
import Verif.PropsNative
import Verif.Pre
import Verif.SpecPre
import Verif.PreLemmas
import Verif.PropsPre
import Verif.Handlers
import Verif.PropsHandlers
import Verif.Convert
import Verif.PropsConvert
import Verif.EndToEnd
import Verif.SpecEndToEnd
import Verif.PropsEndToEnd
import Verif.SpecOwn
import Verif.PropsOwn
import Verif.ReceivePrefix
import Verif.ReceiveTotal
import Verif.ReceiveFormat
import Verif.ReceiveNegative
import Verif.PropsReceive
import Verif.GenRegister
import Verif.SpecRegister
import Verif.RegisterLemmas
import Verif.PropsRegister
import Verif.GenComments
import Verif.SpecComments
import Verif.PropsComments
import Verif.StatusValue
import Verif.SpecStatusValue
import Verif.PropsStatusValue
import Verif.GenQml
import Verif.SpecQml
import Verif.PropsQml
import Verif.EndToEndNative
import Verif.SpecEndToEndNative
import Verif.PropsEndToEndNative
import Verif.SpecQtPeers
import Verif.PropsQtPeers
import Verif.ClientEnd
import Verif.PropsClientEnd
import Verif.Threads
import Verif.ThreadLemmas
import Verif.PropsThreads
import Verif.Subscribe
import Verif.PropsSubscribe
import Verif.StreamRead
import Verif.PropsStreamRead
import Verif.ReadLock
import Verif.PropsReadLock
import Verif.Races
import Verif.PropsRaces
import Verif.Channels
import Verif.PropsChannels
import Verif.PropsPresence
import Verif.GenTemplates
import Verif.GenPrint
import Verif.SpecCpp
import Verif.SpecText
import Verif.TextLex
import Verif.TextRead
import Verif.TextVars
import Verif.TextComment
import Verif.TextEff
import Verif.TextMsg
import Verif.TextDef
import Verif.TextFile
import Verif.TextProps
import Verif.TextFound
import Verif.PropsGenPrint
import Verif.SpecCppDef
import Verif.TextItems
import Verif.TextSym
import Verif.TextSrc
import Verif.TextSrcFile
import Verif.SpecDefs
import Verif.TextDefs
import Verif.TextDefs2
import Verif.PropsGenDefs
import Verif.SpecCppRun
import Verif.SpecCppObj
import Verif.TextRun
import Verif.TextExec
import Verif.TextFields
import Verif.TextObjs
import Verif.TextLib
import Verif.SpecCppInline
import Verif.TextInline
import Verif.TextInline2
import Verif.TextInline3
import Verif.TextInline4
import Verif.TextInline5
import Verif.SpecCppProgram
import Verif.TextProgram
import Verif.TextSetters
import Verif.PropsGenRun
import Verif.TextGetters
import Verif.PropsGenGet
import Verif.SpecCppCtor
import Verif.TextCtor
import Verif.PropsGenCtorRun
import Verif.SpecMeta
import Verif.PropsGenMeta
import Verif.Waiting
import Verif.PropsWaiting
import Verif.SpecOrder
import Verif.GenOrder
import Verif.OrderLemmas
import Verif.PropsGenOrder
import Verif.PropsGenOrderMulti
import Verif.PropsGenOrderWrong
import Verif.PropsGenOrderDemo
import Verif.GenMulti
import Verif.TextMulti
import Verif.SpecModes
import Verif.TextModes
import Verif.PropsGenModes
import Verif.PropsGenOrderText
import Verif.SpecCppClient
import Verif.SpecClientRun
import Verif.TextClient
import Verif.PropsGenClientRun
import Verif.Heap
import Verif.SpecHeap
import Verif.HeapProofs
import Verif.HeapSeen
import Verif.HeapDeep
import Verif.HeapAssign
import Verif.HeapRun
import Verif.PropsHeap
import Verif.QuickText
import Verif.PropsQuickText
import Verif.Meta
import Verif.SpecWire
import Verif.MetaProofs
import Verif.PropsMeta
import Verif.MetaJson
import Verif.SpecMetaJson
import Verif.MetaJsonProofs
import Verif.PropsMetaJson
import Verif.Whole
import Verif.SpecWhole
import Verif.PropsWhole
import Verif.WholeNative
import Verif.PropsWholeNative
import Verif.JsonHandlers
import Verif.SpecJsonHandlers
import Verif.PropsJsonHandlers
import Verif.EndToEndAsync
import Verif.SpecEndToEndAsync
import Verif.PropsEndToEndAsync
import Verif.EndToEndAsyncNative
import Verif.SpecEndToEndAsyncNative
import Verif.PropsEndToEndAsyncNative
import Verif.WholeAsync
import Verif.SpecWholeAsync
import Verif.PropsWholeAsync
import Verif.WholeAsyncNative
import Verif.SpecWholeAsyncNative
import Verif.PropsWholeAsyncNative
import Verif.StreamBytes
import Verif.SpecStreamBytes
import Verif.SpecStreamBytesServer
import Verif.StreamBytesLemmas
import Verif.StreamBytesInv
import Verif.StreamBytesHeard
import Verif.PropsStreamBytes
import Verif.PropsStreamBytesNative
import Verif.GoList
import Verif.SpecGoList
import Verif.PropsGoList
import Verif.ListModel
import Verif.SpecListModel
import Verif.PropsListModel
import Verif.ChatServer
import Verif.SpecChatServer
import Verif.PropsChatServer
import Verif.StreamReenter
import Verif.SpecStreamReenter
import Verif.PropsStreamReenter
import Verif.Inside
import Verif.SpecInside
import Verif.PropsInside
import Verif.AddressServer
import Verif.Md5
import Verif.SpecAddressServer
import Verif.BoardLemmas
import Verif.PropsAddressServer
import Verif.ChatEngine
import Verif.SpecChatEngine
import Verif.PropsChatEngine
import Verif.EchoEngine
import Verif.SpecEchoEngine
import Verif.PropsEchoEngine
import Verif.QtMedia
import Verif.SpecQtMedia
import Verif.PropsQtMedia
import Verif.QtJson
import Verif.SpecQtJson
import Verif.PropsQtJson
import Verif.FieldBytes
import Verif.QtFields
import Verif.SpecQtFields
import Verif.PropsQtFields
import Verif.QtObjects
import Verif.SpecQtObjects
import Verif.PropsQtObjects
import Verif.QtNested
import Verif.SpecQtNested
import Verif.PropsQtNested
import Verif.QtNestedObjects
import Verif.SpecQtNestedObjects
import Verif.PropsQtNestedObjects
import Verif.QtNestedMove
import Verif.SpecQtNestedMove
import Verif.PropsQtNestedMove
import Verif.QtNestedJson
import Verif.SpecQtNestedJson
import Verif.PropsQtNestedJson
import Verif.SpecQtNestedJsonSafe
import Verif.PropsQtNestedJsonSafe
import Verif.SpecQtNestedJsonRects
import Verif.PropsQtNestedJsonRects
import Verif.QtMediaJson
import Verif.SpecQtMediaJson
import Verif.PropsQtMediaJson
import Verif.SpecQtNestedBytes
import Verif.QtNestedEnds
import Verif.QtNestedUb
import Verif.QtNestedCut
import Verif.PropsQtNestedBytes
import Verif.Audit

import Verif.Model.Py
import Verif.Model.XmlUtils
import Verif.Lemmas.XmlUtils
import Verif.Props.XmlUtils
import Verif.Model.Search
import Verif.Model.ContentPackage
import Verif.Spec.Package
import Verif.Lemmas.ContentPackage
import Verif.Props.ContentPackage
import Verif.Model.RespProc
import Verif.Spec.RespProc
import Verif.Props.RespProc
import Verif.Model.Dict
import Verif.Model.ItemVars
import Verif.Props.ItemVars
import Verif.Model.CharClass
import Verif.Lemmas.CharClass
import Verif.Spec.CharClass
import Verif.Props.CharClass
import Verif.Model.Shapes
import Verif.Spec.Shapes
import Verif.Props.Shapes
import Verif.Model.Names
import Verif.Spec.Names
import Verif.Props.Names
import Verif.Model.SaxDriver
import Verif.Props.SaxDriver
import Verif.Model.Html
import Verif.Spec.Html
import Verif.Props.Html
import Verif.Model.Calendar
import Verif.Spec.Calendar
import Verif.Props.Calendar
import Verif.Props.WeekTime
import Verif.Model.Shell
import Verif.Props.Shell
import Verif.Model.WinChars
import Verif.Spec.WinChars
import Verif.Props.WinChars
import Verif.Model.Uri
import Verif.Spec.Uri
import Verif.Lemmas.Uri
import Verif.Props.Uri
import Verif.Props.UriText
import Verif.Props.UriPath
import Verif.Props.UriRelative
import Verif.Model.CpFiles
import Verif.Spec.Files
import Verif.Props.CpFiles
import Verif.Props.CpExport
import Verif.Props.CpUnique
import Verif.Model.XsdText
import Verif.Model.QtiValue
import Verif.Model.QtiExpr
import Verif.Model.QtiRun
import Verif.Model.V1Resp
import Verif.Model.Rtf
import Verif.Spec.Qti
import Verif.Lemmas.Qti
import Verif.Lemmas.Rtf
import Verif.Props.QtiLogic
import Verif.Props.QtiTypes
import Verif.Props.QtiState
import Verif.Props.QtiContainers
import Verif.Props.QtiArith
import Verif.Props.QtiMap
import Verif.Spec.XsdText
import Verif.Props.XsdText
import Verif.Spec.V1
import Verif.Spec.Rtf
import Verif.Props.V1Score
import Verif.Props.V1Cond
import Verif.Props.V1Item
import Verif.Props.RtfEnds
import Verif.Props.RtfText
import Verif.Lemmas.Xml
import Verif.Lemmas.ItemXml
import Verif.Props.ItemXml
import Verif.Props.ItemDoc
import Verif.Model.ManifestXml
import Verif.Spec.ManifestXml
import Verif.Lemmas.ManifestXml
import Verif.Props.ManifestXml
import Verif.Props.ManifestMeta
import Verif.Model.ItemMeta
import Verif.Spec.ItemMeta
import Verif.Props.ItemMeta
import Verif.Model.TestForm
import Verif.Spec.TestForm
import Verif.Lemmas.TestForm
import Verif.Lemmas.TestFormMix
import Verif.Lemmas.TestFormSound
import Verif.Lemmas.TestFormAll
import Verif.Props.TestForm
import Verif.Model.TestSession
import Verif.Spec.TestSession
import Verif.Lemmas.TestSession
import Verif.Lemmas.TestSessionTime
import Verif.Props.TestSession
import Verif.Props.TestSessionTime
import Verif.Model.Presentation
import Verif.Spec.Presentation
import Verif.Lemmas.Presentation
import Verif.Lemmas.PresentationKept
import Verif.Lemmas.PresentationBound
import Verif.Props.Presentation
import Verif.Props.PresentationMore
import Verif.Props.PresentationFail
import Verif.Props.PresentationText
import Verif.Model.Paging
import Verif.Model.MemStore
import Verif.Spec.Paging
import Verif.Spec.MemStore
import Verif.Lemmas.Paging
import Verif.Lemmas.MemStore
import Verif.Props.Paging
import Verif.Props.MemStore
import Verif.Model.MemLinks
import Verif.Spec.MemLinks
import Verif.Lemmas.MemLinks
import Verif.Props.MemLinks
import Verif.Props.MemLinksMore
import Verif.Model.CommandLine
import Verif.Props.CommandLine
import Verif.Props.Inputs
import Verif.Model.HttpWords
import Verif.Model.HttpValues
import Verif.Lemmas.HttpWords
import Verif.Lemmas.HttpValues
import Verif.Lemmas.HttpOrder
import Verif.Props.HttpWords
import Verif.Props.HttpMedia
import Verif.Props.HttpAccept
import Verif.Props.HttpTokens
import Verif.Props.HttpVersions
import Verif.Props.HttpTags
import Verif.Model.HttpDate
import Verif.Spec.HttpDate
import Verif.Props.HttpDate
import Verif.Props.HttpErrors
import Verif.Model.ODataLit
import Verif.Model.ODataExpr
import Verif.Spec.OData
import Verif.Lemmas.ODataLen
import Verif.Lemmas.ODataFuel
import Verif.Lemmas.ODataErr
import Verif.Lemmas.ODataRead
import Verif.Lemmas.ODataLitRead
import Verif.Lemmas.ODataGrammar
import Verif.Lemmas.ODataWrite
import Verif.Lemmas.ODataPrint
import Verif.Props.ODataExpr
import Verif.Spec.ODataRange
import Verif.Props.ODataRange
import Verif.Model.ODataEval
import Verif.Spec.ODataEval
import Verif.Lemmas.ODataTypes
import Verif.Lemmas.ODataTrunc
import Verif.Lemmas.ODataSteps
import Verif.Lemmas.ODataOrder
import Verif.Lemmas.ODataGood
import Verif.Props.ODataArith
import Verif.Props.ODataCompare
import Verif.Props.ODataText
import Verif.Props.ODataErrors
import Verif.Model.ODataOptions
import Verif.Spec.ODataOptions
import Verif.Lemmas.ODataOptions
import Verif.Props.ODataOptions
import Verif.Props.ODataUri
import Verif.Props.ODataUriErrors
import Verif.Model.ODataServer
import Verif.Spec.ODataServer
import Verif.Props.ODataServer
import Verif.Props.ODataServerSafe
import Verif.Props.ODataServerAnswers
import Verif.Props.ODataServerFaults
import Verif.Props.ODataServerReads
import Verif.Model.PyMigrate
import Verif.Spec.PyMigrate
import Verif.Props.PyMigrate
import Verif.Props.PyArea
import Verif.Props.PyDeclare
import Verif.Props.PyExample
import Verif.Model.PyXml
import Verif.Spec.PyXml
import Verif.Props.PyXmlRead
import Verif.Props.PyXmlFacts
import Verif.Props.PyXmlSound
import Verif.Props.PyXmlEnds
import Verif.Props.PyXmlWrite
import Verif.Props.PyXmlValues
import Verif.Model.SqlExpr
import Verif.Spec.Sql
import Verif.Spec.SqlMeaning
import Verif.Spec.SqlText
import Verif.Props.SqlReads
import Verif.Props.SqlFilter
import Verif.Props.SqlLimits
import Verif.Props.SqlText
import Verif.Model.SqlPool
import Verif.Spec.SqlPool
import Verif.Props.SqlPool
import Verif.Props.SqlPoolWake
import Verif.Props.SqlPoolClose
import Verif.Model.SqlPage
import Verif.Spec.SqlPage
import Verif.Lemmas.SqlPage
import Verif.Props.SqlPage
import Verif.Props.SqlPageFaults
import Verif.Model.SqlStore
import Verif.Spec.SqlStore
import Verif.Props.SqlStore
import Verif.Props.SqlStoreKept
import Verif.Props.SqlStoreUpdate
import Verif.Props.SqlStoreFaults
import Verif.Props.HttpFaults
import Verif.Props.HttpRequest
import Verif.Props.HttpPool
import Verif.Model.HttpConnection
import Verif.Spec.HttpConnection
import Verif.Lemmas.HttpConnection
import Verif.Lemmas.HttpConnectionBase
import Verif.Lemmas.HttpConnectionOrder
import Verif.Lemmas.HttpConnectionWire
import Verif.Lemmas.HttpConnectionAnswers
import Verif.Lemmas.HttpConnectionAll
import Verif.Lemmas.HttpConnectionMore
import Verif.Lemmas.HttpConnectionEnds
import Verif.Lemmas.HttpConnectionRuns
import Verif.Props.HttpConnection
import Verif.Model.HttpAuth
import Verif.Spec.HttpAuth
import Verif.Lemmas.HttpBase64
import Verif.Lemmas.HttpAuth
import Verif.Lemmas.HttpExchange
import Verif.Lemmas.HttpChallenge
import Verif.Props.HttpAuth
import Verif.Props.HttpAuthLive
import Verif.Props.SqlStoreSpared
import Verif.Model.Tokens
import Verif.Spec.Tokens
import Verif.Props.Tokens
import Verif.Props.TokenFaults
import Verif.Props.XmlEntitiesEnd
import Verif.Props.ODataJsonFaults
import Verif.Props.ODataCopy
import Verif.Props.ODataFeeds
import Verif.Model.XmlNames
import Verif.Spec.XmlNames
import Verif.Props.XmlNamesRead
import Verif.Props.XmlNamesWrite
import Verif.Props.XmlNamesFaults
import Verif.Props.XmlNamesRewrite
import Verif.Model.Blti
import Verif.Props.Blti
import Verif.Model.Abnf
import Verif.Spec.Abnf
import Verif.Props.Abnf
import Verif.Props.AbnfRules
import Verif.Model.Rfc2234
import Verif.Props.Rfc2234
import Verif.Model.AbnfText
import Verif.Props.AbnfText
import Verif.Model.Enumeration
import Verif.Props.Enumeration
import Verif.Model.InputWrapper
import Verif.Props.InputWrapper
import Verif.Model.Atom
import Verif.Props.Atom
import Verif.Model.Vfs
import Verif.Props.Vfs
import Verif.Model.Sniff
import Verif.Props.Sniff
import Verif.Model.AutoDetect
import Verif.Props.AutoDetect
import Verif.Model.XmlLines
import Verif.Props.XmlLines

import Verif.Spec
import Verif.Basic
import Verif.Diana
import Verif.RecipTable
import Verif.Codec
import Verif.BasicLemmas
import Verif.CodecLemmas
import Verif.Functions
import Verif.Store
import Verif.Cipher
import Verif.CipherLemmas
import Verif.SpecStore
import Verif.SpecCipher
import Verif.RoundLemmas
import Verif.EncLemmas
import Verif.EncFacts
import Verif.SecrecyLemmas
import Verif.PropsCipher
import Verif.PropsCodec
import Verif.DianaLemmas
import Verif.PropsRecip
import Verif.PropsDiana
import Verif.FunLemmas
import Verif.PropsFunctions
import Verif.DecLemmas
import Verif.PropsDecipher
import Verif.EncFail
import Verif.EncEnough
import Verif.PropsEncipher
import Verif.SpecNames
import Verif.SpecImport
import Verif.Crand
import Verif.Keys
import Verif.Messages
import Verif.KeyLemmas
import Verif.DelLemmas
import Verif.ImpLemmas
import Verif.ImpSpec
import Verif.LiveLemmas
import Verif.PropsKeys
import Verif.Regex
import Verif.Radiogram
import Verif.RegexLemmas
import Verif.SpecRadio
import Verif.RadioLemmas
import Verif.RadioMatch
import Verif.PropsRadiogram
import Verif.MsgLemmas
import Verif.PropsMessages
import Verif.SpecRandom
import Verif.UniformLemmas
import Verif.PropsRandom
import Verif.RandLock
import Verif.LockLemmas
import Verif.PropsLock
import Verif.SpecHistory
import Verif.HistLemmas
import Verif.HistNamed
import Verif.FaceKeeps
import Verif.PropsHistory
import Verif.Conc
import Verif.ConcLemmas
import Verif.PropsConc
import Verif.Filter
import Verif.Print
import Verif.Summary
import Verif.SpecCli
import Verif.FilterLemmas
import Verif.PrintLemmas
import Verif.SummaryLemmas
import Verif.PropsFilter
import Verif.PropsPrint
import Verif.PropsSummary
import Verif.Krypto
import Verif.SpecPfk
import Verif.PfkLemmas
import Verif.PropsPfk
import Verif.Persist
import Verif.SpecPersist
import Verif.PersistLemmas
import Verif.PersistEx
import Verif.PropsPersist
import Verif.PropsImportFile
import Verif.SpecHandover
import Verif.HandoverLemmas
import Verif.PropsHandover
import Verif.Heap
import Verif.SpecHeap
import Verif.HeapLemmas
import Verif.ExportLemmas
import Verif.PropsHeap
import Verif.Cli
import Verif.SpecCmd
import Verif.CliLemmas
import Verif.PfkCmdLemmas
import Verif.CmdEx
import Verif.PropsCmd
import Verif.PropsRekey
import Verif.InitLemmas
import Verif.PropsInit
import Verif.SpecTraffic
import Verif.TrafficLemmas
import Verif.TrafficMatch
import Verif.TrailLemmas
import Verif.Traffic
import Verif.SpacedLemmas
import Verif.TrafficLong
import Verif.PropsTraffic
import Verif.PropsText
import Verif.SpecNet
import Verif.NetLemmas
import Verif.PropsNet
import Verif.SpecSecrecy
import Verif.FaceLemmas
import Verif.PadLemmas
import Verif.AirLemmas
import Verif.TapeLemmas
import Verif.PropsSecrecy
import Verif.SpecRuns
import Verif.RunLemmas
import Verif.PropsRuns
import Verif.PropsShow
import Verif.StoreCmdLemmas
import Verif.PropsStoreCmd
import Verif.HandCmdLemmas
import Verif.PropsHandCmd
import Verif.DeleteLemmas
import Verif.PropsDelete
import Verif.SpecOrder
import Verif.OrderLemmas
import Verif.PropsOrder
import Verif.SpecSealed
import Verif.SealedLemmas
import Verif.PropsSealed
import Verif.SpecTalk
import Verif.TalkLemmas
import Verif.PropsTalk
import Verif.LengthLemmas
import Verif.PropsLength
import Verif.PropsAlive
import Verif.SpecLegend
import Verif.LegendLemmas
import Verif.PropsLegend
import Verif.Columns
import Verif.ColumnLemmas
import Verif.PropsColumns
import Verif.CrashLemmas
import Verif.PropsCrash
import Verif.Places
import Verif.SpecPlaces
import Verif.PlaceLemmas
import Verif.PlaceSteps
import Verif.PlacePointers
import Verif.PropsPlaces
import Verif.SpecTables
import Verif.TableLemmas
import Verif.PropsTables
import Verif.Traces
import Verif.SpecTraces
import Verif.TraceLemmas
import Verif.PropsTraces
import Verif.LookupLemmas
import Verif.PropsLookup
import Verif.SpecStart
import Verif.StartLemmas
import Verif.PropsStart
import Verif.KeyPage
import Verif.SpecPage
import Verif.PageLemmas
import Verif.PropsPage
import Verif.AskOld
import Verif.AskOldLemmas
import Verif.PropsAskOld
import Verif.Prompt
import Verif.PromptLemmas
import Verif.PropsPrompt
import Verif.ListingLemmas
import Verif.PropsListing
import Verif.SpecOverlap
import Verif.PropsOverlap
import Verif.SpecForms
import Verif.FormTrail
import Verif.FormMatch
import Verif.MiniMatch
import Verif.PropsForms
import Verif.SpecRelabel
import Verif.RelabelLemmas
import Verif.PropsExpiry
import Verif.HoldLemmas
import Verif.PropsHold
import Verif.SpecStay
import Verif.StayLemmas
import Verif.PropsStay
import Verif.WipeTextLemmas
import Verif.PropsWipeText
import Verif.SpecReadme
import Verif.ReadmeCodes
import Verif.ReadmeLemmas
import Verif.PropsReadme
import Verif.SpecFits
import Verif.FitsLemmas
import Verif.PropsFits
import Verif.PropsUsable
import Verif.SpecForge
import Verif.ForgeLemmas
import Verif.PropsForge
import Verif.PropsReuse
import Verif.PropsNamed
import Verif.PropsUnnamed
import Verif.PropsMarks
import Verif.PropsKept
import Verif.SpecRest
import Verif.RestLemmas
import Verif.PropsRest
import Verif.PropsDice
import Verif.GoString
import Verif.SpecDiag
import Verif.DiagLemmas
import Verif.PropsDiag
import Verif.PropsDecFail
import Verif.KeyOrderLemmas
import Verif.PropsKeyOrder
import Verif.MsgOrderLemmas
import Verif.PropsMsgOrder
import Verif.SpecEnd
import Verif.EndLemmas
import Verif.PropsEnd
import Verif.SpecSame
import Verif.SameLemmas
import Verif.PropsSame
import Verif.SpecEntry
import Verif.EntryLemmas
import Verif.PropsEntry
import Verif.TogetherLemmas
import Verif.PropsTogether
import Verif.WrittenLemmas
import Verif.PropsWritten
import Verif.SpecTrace
import Verif.GoneLemmas
import Verif.GoneCmd
import Verif.PropsGone
import Verif.AgainLemmas
import Verif.PropsAgain
import Verif.HelpLemmas
import Verif.PropsHelp
import Verif.SpecYes
import Verif.YesLemmas
import Verif.PropsYes
import Verif.PropsForced
import Verif.SpecKeyed
import Verif.KeyedLemmas
import Verif.PropsKeyed
import Verif.ToldLemmas
import Verif.PropsTold
import Verif.CopiedLemmas
import Verif.PropsCopied
import Verif.PropsTwice
import Verif.PropsRekeys
import Verif.OpeningLemmas
import Verif.PropsOpening
import Verif.ChangedLemmas
import Verif.PropsChanged

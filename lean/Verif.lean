import Verif.Prelude.BitsLemmas
import Verif.Model.History
import Verif.Props.Gst
import Verif.Props.Svn
import Verif.Props.Subframe
import Verif.Props.Dsm
import Verif.Prelude.Slots
import Verif.Props.MackStorage
import Verif.Lemmas.NavItems
import Verif.Props.NavData
import Verif.Props.AuthBits
import Verif.Props.Tesla
import Verif.Tests.Sha256
import Verif.Tests.UnitTests
import Verif.Lemmas.OsnmaRun
import Verif.Props.Mack
import Verif.Props.LowLevelExamples
import Verif.Props.Kroot
import Verif.Props.Merkle
import Verif.Props.Keys
import Verif.Props.Authentic
import Verif.Props.Panics
import Verif.Props.Chains
import Verif.Props.Prost
import Verif.Props.Galmon
import Verif.Props.GalmonOsnma
import Verif.Props.GalmonRuns
import Verif.Props.GalmonExample
import Verif.Props.Reports
import Verif.Props.Serial
import Verif.Props.Link
import Verif.Props.LinkOutput
import Verif.Spec.Transcript
import Verif.Props.Vectors
import Verif.Props.Complete
import Verif.Props.CompleteExample
import Verif.Props.NavExamples
import Verif.Props.SerialRuns
import Verif.Props.SerialExample
import Verif.Spec.KeyMachine
import Verif.Lemmas.KeyMachine
import Verif.Props.KeyMachine
import Verif.Spec.NavMachine
import Verif.Lemmas.NavFrames
import Verif.Lemmas.NavTags
import Verif.Lemmas.NavMachine
import Verif.Props.NavMachine
import Verif.Spec.LineGrammar
import Verif.Lemmas.TextExact
import Verif.Lemmas.SerialExact
import Verif.Props.SerialGrammar
import Verif.Spec.Places
import Verif.Lemmas.Places
import Verif.Lemmas.PlacesKept
import Verif.Props.Places
import Verif.Props.Repeats
import Verif.Props.RepeatsExample
import Verif.Props.PlacesExample
import Verif.Props.Repeats
import Verif.Props.RepeatsExample
import Verif.Model.Startup
import Verif.Spec.StartSpec
import Verif.Props.Startup
import Verif.Spec.WireSpec
import Verif.Lemmas.Wire
import Verif.Lemmas.WireMsg
import Verif.Props.Wire
import Verif.Spec.CsvSpec
import Verif.Lemmas.Csv
import Verif.Props.Csv
import Verif.Model.FileName
import Verif.Spec.Calendar
import Verif.Props.FileName
import Verif.Model.Logging
import Verif.Props.Logging
import Verif.Model.Release
import Verif.Props.Release
import Verif.Model.Api
import Verif.Spec.Validated
import Verif.Tests.ApiKeys
import Verif.Props.Validated
import Verif.Spec.NavApi
import Verif.Lemmas.NavApi
import Verif.Props.NavApi
import Verif.Spec.Broadcast
import Verif.Lemmas.Broadcast
import Verif.Lemmas.Recovery
import Verif.Tests.Receive
import Verif.Props.Recovery
import Verif.Lemmas.ColdStart
import Verif.Lemmas.Switch
import Verif.Props.Switch
import Verif.Props.ColdStart
import Verif.Props.ColdStartExample
import Verif.Props.SwitchExample
import Verif.Props.Spoofing
import Verif.Props.SpoofingExample
import Verif.Props.Disclosure
import Verif.Props.DisclosureExample
import Verif.Props.Interleaving
import Verif.Props.InterleavingExample
import Verif.Model.Work
import Verif.Lemmas.WorkErase
import Verif.Spec.WorkSpec
import Verif.Lemmas.Work
import Verif.Lemmas.WorkTags
import Verif.Props.Work
import Verif.Props.WorkExample
import Verif.Props.ReportedTime
import Verif.Spec.StorageSize
import Verif.Lemmas.StorageSize
import Verif.Props.StorageSize
import Verif.Props.StorageSizeExample
import Verif.Lemmas.SamePanics
import Verif.Props.SamePanics
import Verif.Props.SamePanicsExample
import Verif.Props.Lasting
import Verif.Props.LastingExample
import Verif.Spec.OtherWords
import Verif.Lemmas.OtherWords
import Verif.Props.OtherWords
import Verif.Props.OtherWordsExample
import Verif.Spec.Replay
import Verif.Props.Replay
import Verif.Props.ReplayExample
import Verif.Props.SlowOnly
import Verif.Props.SlowOnlyExample
import Verif.Props.MoreHeard
import Verif.Props.MoreHeardExample
import Verif.Spec.PlaceMachine
import Verif.Lemmas.PlaceFrames
import Verif.Lemmas.PlaceMachine
import Verif.Props.PlaceMachine
import Verif.Props.PlaceMachineExample
import Verif.Props.Weeks
import Verif.Props.WeeksExample
import Verif.Model.Caught
import Verif.Lemmas.Caught
import Verif.Props.Caught
import Verif.Props.CaughtExample
import Verif.Spec.Renewal
import Verif.Props.Renewal
import Verif.Props.RenewalExample
import Verif.Spec.Operator
import Verif.Props.Operator
import Verif.Props.OperatorExample
import Verif.Props.Lateness
import Verif.Props.LatenessExample
import Verif.Spec.WithoutP521
import Verif.Props.WithoutP521
import Verif.Props.WithoutP521Firmware
import Verif.Props.WithoutP521Example
import Verif.Props.RootUnused
import Verif.Props.RootUnusedExample
import Verif.Spec.FirstFix
import Verif.Props.FirstFix
import Verif.Props.FirstFixExample
import Verif.Spec.CaughtMachine
import Verif.Lemmas.CaughtMachine
import Verif.Props.CaughtMachine
import Verif.Props.CaughtMachineExample
import Verif.Lemmas.CaughtRecovery
import Verif.Lemmas.CaughtComplete
import Verif.Props.CaughtRecovery
import Verif.Props.CaughtRecoveryExample

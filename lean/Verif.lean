import Verif.Props.Codec
import Verif.Props.Crypto
import Verif.Props.Fs
import Verif.Props.Blocklist
import Verif.Props.Server
import Verif.Props.History
import Verif.Props.Run
import Verif.Props.TwoServers
import Verif.Props.Keys
import Verif.Props.Socket
import Verif.Props.Rate
import Verif.Props.IpFilter
import Verif.Props.Commander
import Verif.Props.Exec
import Verif.Props.Listener
import Verif.Props.Locks
import Verif.Props.IpText
import Verif.Props.Client
import Verif.Props.ClientHistory
import Verif.Props.ServerRate
import Verif.Props.EndToEnd
import Verif.Props.AtMostOnce
import Verif.Props.Joint
import Verif.Props.Reseed
import Verif.Props.Update
import Verif.Props.Wizard
import Verif.Props.Ui
import Verif.Props.SendContent
import Verif.Props.KeyLife
import Verif.Props.Config
import Verif.Props.LogFilter
import Verif.Props.CommanderTime
import Verif.Props.UpdateCli
import Verif.Props.ConfDir
import Verif.Props.SecurityClaims
import Verif.Props.Installation
import Verif.Props.UiFrames
import Verif.Props.Leftovers
import Verif.Props.Processes
import Verif.Props.Backlog
import Verif.Spec.Effects
import Verif.Lemmas.Within
import Verif.Props.ClientEffects
import Verif.Model.CommanderLog
import Verif.Spec.CommanderLog
import Verif.Props.CommanderLog
import Verif.Spec.CommanderEffects
import Verif.Props.CommanderEffects
import Verif.Spec.Wizard
import Verif.Props.WizardEffects
import Verif.Spec.Delivery
import Verif.Spec.Flood
import Verif.Props.Flood
import Verif.Spec.Secrecy
import Verif.Props.Secrecy
import Verif.Spec.Nonce
import Verif.Props.Nonce
import Verif.Model.Units
import Verif.Spec.Units
import Verif.Props.Units
import Verif.Props.Growth
import Verif.Model.Stop
import Verif.Props.Stop
import Verif.Model.ServerLog
import Verif.Spec.ServerLog
import Verif.Props.ServerLog
import Verif.Model.Refusal
import Verif.Spec.Refusal
import Verif.Props.RefusalText
import Verif.Props.Refusal
import Verif.Model.Cli
import Verif.Spec.Cli
import Verif.Props.Cli
import Verif.Model.Programs
import Verif.Spec.Setup
import Verif.Props.Setup
import Verif.Spec.SharedKey
import Verif.Props.SharedKey
import Verif.Model.Android
import Verif.Spec.Android
import Verif.Props.Android
import Verif.Props.Clocks
import Verif.Spec.Watch
import Verif.Props.Watch
import Verif.Model.Utf8
import Verif.Spec.Button
import Verif.Props.Button
import Verif.Spec.Modes
import Verif.Props.Modes
import Verif.Spec.Keys
import Verif.Spec.Gate
import Verif.Props.Gate
import Verif.Props.UiLegacy
import Verif.Props.CreateForm
import Verif.Model.Restart
import Verif.Spec.Restart
import Verif.Props.Restart
import Verif.Spec.SavedLine
import Verif.Props.SavedLine
import Verif.Spec.Started
import Verif.Props.Started
import Verif.Spec.Stamp
import Verif.Props.Stamp
import Verif.Spec.AddressText
import Verif.Props.AddressText
import Verif.Spec.UiScreen
import Verif.Props.UiScreen
import Verif.Spec.InOrder
import Verif.Props.InOrder
import Verif.Spec.AtOnce
import Verif.Model.AtOnce
import Verif.Props.AtOnce
import Verif.Model.AtOnceJoint
import Verif.Props.AtOnceJoint
import Verif.Props.FsExact
import Verif.Props.TwoServersExact
import Verif.Props.ReseedExact
import Verif.Props.StartExact
import Verif.Props.Gen
import Verif.Spec.Reach
import Verif.Props.Reach
import Verif.Lemmas.Damage
import Verif.Spec.Damage
import Verif.Props.Damage
import Verif.Spec.WhiteSpace
import Verif.Props.WhiteSpace
import Verif.Lemmas.Lost
import Verif.Spec.Lost
import Verif.Props.Lost
import Verif.Spec.ManyServers
import Verif.Props.ManyServers
import Verif.Spec.TextShown
import Verif.Props.TextShown
import Verif.Model.CommanderText
import Verif.Spec.ReadLog
import Verif.Props.ReadLog
import Verif.Spec.Terms.DualStack
import Verif.Props.DualStack
import Verif.Model.Blake2b
import Verif.Props.NameNumber
import Verif.Spec.Help
import Verif.Props.Help
import Verif.Spec.Terms.UpdateSelf
import Verif.Props.UpdateSelf
import Verif.Spec.Layout
import Verif.Props.Layout
import Verif.Props.UiUnread
import Verif.Props.WizardExact
import Verif.Model.ClientLog
import Verif.Spec.ClientLog
import Verif.Props.ClientLog
import Verif.Spec.UnknownKeys
import Verif.Props.UnknownKeys
import Verif.Lemmas.Oracle
import Verif.Model.DebugLog
import Verif.Spec.DebugLog
import Verif.Props.DebugLog
import Verif.Model.UpdateLog
import Verif.Props.UpdateLog
import Verif.Model.WizardLog
import Verif.Spec.WizardLog
import Verif.Props.WizardLog
import Verif.Props.Exact

import Verif.Lemmas.Agreement
import Verif.Lemmas.Assign
import Verif.Lemmas.Attempts
import Verif.Lemmas.Authentic
import Verif.Lemmas.Base64
import Verif.Lemmas.Bisim
import Verif.Lemmas.CaChallenge
import Verif.Lemmas.CaIv
import Verif.Lemmas.CaNew
import Verif.Lemmas.CaNewOutcome
import Verif.Lemmas.CaReply
import Verif.Lemmas.ChallengeCases
import Verif.Lemmas.ChallengeWire
import Verif.Lemmas.Client
import Verif.Lemmas.ClientApply
import Verif.Lemmas.ClientCrash
import Verif.Lemmas.ClientEnd
import Verif.Lemmas.ClientFetch
import Verif.Lemmas.ClientKeys
import Verif.Lemmas.ClientProbe
import Verif.Lemmas.ClientRun
import Verif.Lemmas.ClientSafe
import Verif.Lemmas.ClientSays
import Verif.Lemmas.ClientTalk
import Verif.Lemmas.ClientTurn
import Verif.Lemmas.Code
import Verif.Lemmas.Config
import Verif.Lemmas.Count
import Verif.Lemmas.Email
import Verif.Lemmas.Encoders
import Verif.Lemmas.Exec
import Verif.Lemmas.Face
import Verif.Lemmas.Files
import Verif.Lemmas.Formed
import Verif.Lemmas.Granted
import Verif.Lemmas.Honest
import Verif.Lemmas.Independence
import Verif.Lemmas.Issue
import Verif.Lemmas.Iv
import Verif.Lemmas.IvRuns
import Verif.Lemmas.JsonFuel
import Verif.Lemmas.JsonGrammar
import Verif.Lemmas.JsonText
import Verif.Lemmas.Life
import Verif.Lemmas.Lifecycle
import Verif.Lemmas.MailScript
import Verif.Lemmas.Mailed
import Verif.Lemmas.Mails
import Verif.Lemmas.Main
import Verif.Lemmas.Messages
import Verif.Lemmas.Module
import Verif.Lemmas.Number
import Verif.Lemmas.Occupied
import Verif.Lemmas.Opens
import Verif.Lemmas.Options
import Verif.Lemmas.Order
import Verif.Lemmas.Origin
import Verif.Lemmas.Packet
import Verif.Lemmas.Pending
import Verif.Lemmas.Probe
import Verif.Lemmas.Race
import Verif.Lemmas.Reconfigure
import Verif.Lemmas.Regex
import Verif.Lemmas.Replay
import Verif.Lemmas.Repo
import Verif.Lemmas.Report
import Verif.Lemmas.RequestObject
import Verif.Lemmas.RequestType
import Verif.Lemmas.Requester
import Verif.Lemmas.Revoke
import Verif.Lemmas.Revoked
import Verif.Lemmas.Safe
import Verif.Lemmas.Secrecy
import Verif.Lemmas.SecretKeys
import Verif.Lemmas.Server
import Verif.Lemmas.Session
import Verif.Lemmas.Shared
import Verif.Lemmas.Size
import Verif.Lemmas.Sqlite
import Verif.Lemmas.Storage
import Verif.Lemmas.StorageRun
import Verif.Lemmas.Strict
import Verif.Lemmas.StrictSteps
import Verif.Lemmas.TextStore
import Verif.Lemmas.Thrown
import Verif.Lemmas.TimeText
import Verif.Lemmas.Tlv
import Verif.Lemmas.Tools
import Verif.Lemmas.ToolsClient
import Verif.Lemmas.ToolsStart
import Verif.Lemmas.Uri
import Verif.Lemmas.UriRead
import Verif.Model.Assign
import Verif.Model.Base64
import Verif.Model.Basic
import Verif.Model.Ca
import Verif.Model.Challenge
import Verif.Model.Client
import Verif.Model.ClientMain
import Verif.Model.Config
import Verif.Model.Crypto
import Verif.Model.Email
import Verif.Model.EmailCheck
import Verif.Model.Encoders
import Verif.Model.Face
import Verif.Model.Files
import Verif.Model.Fulfill
import Verif.Model.JsonText
import Verif.Model.Lifecycle
import Verif.Model.MailScript
import Verif.Model.Main
import Verif.Model.Messages
import Verif.Model.OpenSsl
import Verif.Model.Options
import Verif.Model.Packet
import Verif.Model.Race
import Verif.Model.Repo
import Verif.Model.Report
import Verif.Model.RequestObject
import Verif.Model.Requester
import Verif.Model.Server
import Verif.Model.Shared
import Verif.Model.Storage
import Verif.Model.TextStore
import Verif.Model.TimeText
import Verif.Model.Tlv
import Verif.Model.Types
import Verif.Model.Uri
import Verif.Props.Agreement
import Verif.Props.Assign
import Verif.Props.Backed
import Verif.Props.Base64
import Verif.Props.CaChallenge
import Verif.Props.CaExec
import Verif.Props.CaHistory
import Verif.Props.CaIv
import Verif.Props.CaNew
import Verif.Props.CaSafe
import Verif.Props.ChallengeWire
import Verif.Props.Client
import Verif.Props.ClientCrash
import Verif.Props.ClientEnd
import Verif.Props.ClientMain
import Verif.Props.ClientProbe
import Verif.Props.ClientTalk
import Verif.Props.ClientTurn
import Verif.Props.Config
import Verif.Props.ConfigText
import Verif.Props.Email
import Verif.Props.EmailCheck
import Verif.Props.Encoding
import Verif.Props.Face
import Verif.Props.Files
import Verif.Props.Foreign
import Verif.Props.ForeignNew
import Verif.Props.Formed
import Verif.Props.Fulfill
import Verif.Props.Granted
import Verif.Props.Independence
import Verif.Props.Interchange
import Verif.Props.Iv
import Verif.Props.KeyAgreement
import Verif.Props.Lifecycle
import Verif.Props.Limits
import Verif.Props.MailScript
import Verif.Props.Mailed
import Verif.Props.Mails
import Verif.Props.Main
import Verif.Props.Messages
import Verif.Props.Occupied
import Verif.Props.OpenSsl
import Verif.Props.Options
import Verif.Props.Packet
import Verif.Props.Possession
import Verif.Props.Probe
import Verif.Props.Race
import Verif.Props.Random
import Verif.Props.Reconfigure
import Verif.Props.Rejected
import Verif.Props.Rekey
import Verif.Props.Repo
import Verif.Props.Report
import Verif.Props.RequestObject
import Verif.Props.RequestType
import Verif.Props.Requester
import Verif.Props.Resent
import Verif.Props.Revoke
import Verif.Props.Revoked
import Verif.Props.SecretCode
import Verif.Props.SecretKeys
import Verif.Props.Server
import Verif.Props.Session
import Verif.Props.Shared
import Verif.Props.Size
import Verif.Props.Storage
import Verif.Props.Strict
import Verif.Props.TextColumns
import Verif.Props.Thrown
import Verif.Props.Told
import Verif.Props.Tools
import Verif.Props.Twins
import Verif.Spec.Agreement
import Verif.Spec.Assign
import Verif.Spec.Backed
import Verif.Spec.Base64
import Verif.Spec.Ca
import Verif.Spec.CaIv
import Verif.Spec.Challenge
import Verif.Spec.Client
import Verif.Spec.ClientCrash
import Verif.Spec.ClientEnd
import Verif.Spec.ClientMain
import Verif.Spec.ClientTurn
import Verif.Spec.Code
import Verif.Spec.Config
import Verif.Spec.Email
import Verif.Spec.Face
import Verif.Spec.Files
import Verif.Spec.Fixtures
import Verif.Spec.Foreign
import Verif.Spec.Formed
import Verif.Spec.Granted
import Verif.Spec.History
import Verif.Spec.Independence
import Verif.Spec.IvRuns
import Verif.Spec.JsonGrammar
import Verif.Spec.JsonText
import Verif.Spec.Laws
import Verif.Spec.Lifecycle
import Verif.Spec.MailScript
import Verif.Spec.Mails
import Verif.Spec.Messages
import Verif.Spec.Names
import Verif.Spec.Number
import Verif.Spec.OpenSsl
import Verif.Spec.Options
import Verif.Spec.Order
import Verif.Spec.Packet
import Verif.Spec.PacketRun
import Verif.Spec.Race
import Verif.Spec.Random
import Verif.Spec.Reactions
import Verif.Spec.Reconfigure
import Verif.Spec.Rekey
import Verif.Spec.Repo
import Verif.Spec.Report
import Verif.Spec.RequestObject
import Verif.Spec.RequestType
import Verif.Spec.Revoke
import Verif.Spec.Revoked
import Verif.Spec.Run
import Verif.Spec.SecretKeys
import Verif.Spec.Server
import Verif.Spec.Session
import Verif.Spec.Shared
import Verif.Spec.Size
import Verif.Spec.Store
import Verif.Spec.Strict
import Verif.Spec.TextStore
import Verif.Spec.Thrown
import Verif.Spec.TimeText
import Verif.Spec.Told
import Verif.Spec.Tools
import Verif.Spec.Toy
import Verif.Spec.Twins
import Verif.Spec.Uri

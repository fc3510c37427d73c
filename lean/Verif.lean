import Verif.Props.Wire
import Verif.Props.Transceiver
import Verif.Props.Streams
import Verif.Props.Http
import Verif.Props.Request
import Verif.Props.Session
import Verif.Props.Manager
import Verif.Props.Calls
import Verif.Props.Wake
import Verif.Props.Sockets
import Verif.Props.Address
import Verif.Props.Sql
import Verif.Props.SqlArrays
import Verif.Props.SqlConn
import Verif.Props.Mail
import Verif.Props.Curl
import Verif.Props.Curler
import Verif.Lemmas.Server
import Verif.Lemmas.ManagerOwn
import Verif.Lemmas.ServerSend
import Verif.Lemmas.ServerAll
import Verif.Lemmas.ServerRoute
import Verif.Lemmas.ServerWire
import Verif.Lemmas.ServerDone
import Verif.Lemmas.ServerPlay
import Verif.Lemmas.ServerMgmt
import Verif.Lemmas.ServerReply
import Verif.Props.Server
import Verif.Props.Signals
import Verif.Model.Utf8
import Verif.Model.HttpWide
import Verif.Spec.HttpWide
import Verif.Lemmas.HttpWide
import Verif.Props.HttpWide
import Verif.Model.Poll
import Verif.Props.Poll
import Verif.Model.Group
import Verif.Props.Group
import Verif.Model.ServerOwn
import Verif.Lemmas.ServerLive
import Verif.Props.ServerLive
import Verif.Props.ServerAgain
import Verif.Props.ServerSame
import Verif.Props.Memory
import Verif.Model.Log
import Verif.Spec.Log
import Verif.Props.Log
import Verif.Model.Email
import Verif.Spec.Email
import Verif.Props.Email
import Verif.Model.Life
import Verif.Props.Life
import Verif.Props.Listen
import Verif.Props.Block
import Verif.Props.Date
import Verif.Props.RequestWide
import Verif.Props.RequestPort
import Verif.Props.AddressCanon
import Verif.Props.HelperLife
import Verif.Props.Ostream
import Verif.Props.ErrorPage
import Verif.Props.Atof
import Verif.Props.OstreamGood
import Verif.Props.SessionMemory
import Verif.Props.Races
import Verif.Props.Deadlock
import Verif.Props.CurlSettings
import Verif.Props.SqlLive
import Verif.Props.EncManip
import Verif.Props.SqlStatus
import Verif.Props.LogStart
import Verif.Props.ListenFd
import Verif.Props.CurlRetry
import Verif.Props.Pages
import Verif.Props.Settings
import Verif.Props.SessionCookie
import Verif.Props.Expiration
import Verif.Props.EndToEnd
import Verif.Props.Later
import Verif.Props.LaterWide
import Verif.Props.EndToEndWide
import Verif.Props.Refused
import Verif.Props.RefusedWide
import Verif.Props.Taken
import Verif.Props.TakenWide
import Verif.Props.Aborted
import Verif.Props.AbortedWide
import Verif.Props.Turns
import Verif.Props.TurnsWide
import Verif.Props.Phases
import Verif.Props.PhasesWide
import Verif.Lemmas.Slow
import Verif.Props.Slow

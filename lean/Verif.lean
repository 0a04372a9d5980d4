import Verif.Model.Basic
import Verif.Model.Fold
import Verif.Model.DN
import Verif.Model.Entry
import Verif.Model.Txn
import Verif.Model.Bolt
import Verif.Spec.Name
import Verif.Spec.Modify
import Verif.Spec.Directory
import Verif.Proofs.DN
import Verif.Proofs.Entry
import Verif.Proofs.Ids
import Verif.Proofs.Bolt
import Verif.Proofs.BoltStep
import Verif.Props.DN
import Verif.Props.Modify
import Verif.Model.GobInstance
import Verif.Spec.Search
import Verif.Proofs.BoltSearch
import Verif.Proofs.BoltRun
import Verif.Props.Bolt
import Verif.Props.BoltRename
import Verif.Model.Conc
import Verif.Spec.Serial
import Verif.Proofs.Serial
import Verif.Props.Conc
import Verif.Model.Password
import Verif.Props.Password
import Verif.Model.Ber
import Verif.Model.Filter
import Verif.Spec.Filter
import Verif.Props.Filter
import Verif.Proofs.Scope
import Verif.Spec.Scope
import Verif.Props.Scope
import Verif.Model.FilterText
import Verif.Model.Server
import Verif.Model.BoltHandler
import Verif.Spec.Session
import Verif.Proofs.Session
import Verif.Props.Session
import Verif.Spec.FilterText
import Verif.Props.FilterText
import Verif.Spec.BoltServer
import Verif.Proofs.BoltServer
import Verif.Model.World
import Verif.Spec.Wire
import Verif.Spec.Toy
import Verif.Proofs.World
import Verif.Props.BoltServer
import Verif.Proofs.BoltPassword
import Verif.Props.BoltAccess
import Verif.Props.BoltBind
import Verif.Props.BoltPw
import Verif.Props.BoltFind
import Verif.Props.Route
import Verif.Props.Router
import Verif.Props.BoltWrite
import Verif.Props.Crash
import Verif.Model.Ldif
import Verif.Spec.Ldif
import Verif.Proofs.Ldif
import Verif.Proofs.LdifNames
import Verif.Proofs.LdifFilter
import Verif.Spec.LdifToy
import Verif.Proofs.LdifServer
import Verif.Proofs.LdifBlind
import Verif.Props.Ldif
import Verif.Props.LdifBind
import Verif.Props.LdifLoad
import Verif.Proofs.LdifSearch
import Verif.Props.LdifSearch
import Verif.Spec.LdifPaging
import Verif.Proofs.LdifPaging
import Verif.Props.LdifPaging
import Verif.Model.Paging
import Verif.Spec.Paging
import Verif.Props.Paging
import Verif.Props.LdifLimit
import Verif.Model.Load
import Verif.Spec.Load
import Verif.Proofs.Load
import Verif.Props.Load
import Verif.Model.Stats
import Verif.Spec.Stats
import Verif.Proofs.Stats
import Verif.Props.Stats
import Verif.Model.Template
import Verif.Model.NewUsers
import Verif.Spec.Template
import Verif.Spec.NewUsers
import Verif.Proofs.Template
import Verif.Proofs.NewUsers
import Verif.Props.Template
import Verif.Props.NewUsers
import Verif.Props.NewUsersText
import Verif.Model.Serve
import Verif.Props.Serve
import Verif.Model.Parallel
import Verif.Spec.Parallel
import Verif.Proofs.Parallel
import Verif.Proofs.Progress
import Verif.Props.Parallel
import Verif.Props.Cut
import Verif.Model.Wire
import Verif.Spec.Ber
import Verif.Spec.Message
import Verif.Proofs.Ber
import Verif.Proofs.Message
import Verif.Proofs.Codes
import Verif.Props.Wire
import Verif.Props.Spelling
import Verif.Props.Space
import Verif.Props.BoltRead
import Verif.Props.SpaceLaws
import Verif.Props.Vocabulary
import Verif.Props.WellFormed
import Verif.Model.Startup
import Verif.Spec.Startup
import Verif.Props.Startup
import Verif.Model.LdifParallel
import Verif.Spec.LdifParallel
import Verif.Proofs.Record
import Verif.Proofs.LdifCalls
import Verif.Proofs.LdifParallel
import Verif.Proofs.LdifEnds
import Verif.Proofs.LdifRun
import Verif.Props.LdifParallel
import Verif.Proofs.LdifCalm
import Verif.Spec.LdifAlive
import Verif.Props.LdifAlive
import Verif.Spec.Durable
import Verif.Proofs.Durable
import Verif.Props.Durable
import Verif.Props.DurablePw
import Verif.Model.Passwd
import Verif.Spec.Passwd
import Verif.Props.Passwd
import Verif.Model.LdifFormat
import Verif.Spec.LdifFormat
import Verif.Proofs.LdifFormat
import Verif.Props.LdifFormat
import Verif.Spec.Login
import Verif.Spec.UserNames
import Verif.Props.UserNames
import Verif.Props.Login
import Verif.Spec.Served
import Verif.Props.Served
import Verif.Spec.Launch
import Verif.Props.Launch
import Verif.Spec.Loaded
import Verif.Props.Loaded
import Verif.Spec.Utf8
import Verif.Props.Utf8
import Verif.Props.Metrics
import Verif.Props.Commands
import Verif.Props.Register
import Verif.Spec.Order
import Verif.Model.Reload
import Verif.Spec.Reload
import Verif.Props.Reload
import Verif.Model.TemplateLang
import Verif.Spec.TemplateLang
import Verif.Props.TemplateLang
import Verif.Props.Accounts
import Verif.Spec.BoltLife
import Verif.Props.BoltLife
import Verif.Model.ReloadParallel
import Verif.Spec.ReloadParallel
import Verif.Props.LdifUnique
import Verif.Props.ReloadParallel
import Verif.Props.LdifPages
import Verif.Props.ReloadPages
import Verif.Props.UsersLoaded
import Verif.Props.Migrate
import Verif.Props.Unrelated
import Verif.Props.Indexes
import Verif.Props.Repeat
import Verif.Props.Respelt
import Verif.Props.Undo
import Verif.Props.Agree
import Verif.Props.AgreeLdif
import Verif.Props.Shuffle
import Verif.Props.ShuffleLdif
import Verif.Props.Silent
import Verif.Props.Strange
import Verif.Props.Refused
import Verif.Props.Layout
import Verif.Props.Frame
import Verif.Props.FrameLdif
import Verif.Props.Locality
import Verif.Props.Options
import Verif.Props.Kept
import Verif.Spec.Offered
import Verif.Props.Offered
import Verif.Spec.Origin
import Verif.Props.Origin
import Verif.Spec.Stays
import Verif.Props.Stays
import Verif.Props.Ledger
import Verif.Props.Sent
import Verif.Props.Survives
import Verif.Props.DurableRename
import Verif.Props.ValuesKept
import Verif.Props.Gone
import Verif.Props.Moved
import Verif.Props.FreshEntry
import Verif.Props.ModifiedMoved
import Verif.Props.GoneMoved

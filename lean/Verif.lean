import Verif.Lemmas.Body
import Verif.Lemmas.Builds
import Verif.Lemmas.Calls
import Verif.Lemmas.Case
import Verif.Lemmas.Client
import Verif.Lemmas.Complaint
import Verif.Lemmas.Crowd
import Verif.Lemmas.ErrorText
import Verif.Lemmas.Errors
import Verif.Lemmas.Faults
import Verif.Lemmas.Files
import Verif.Lemmas.Forward
import Verif.Lemmas.Grammar
import Verif.Lemmas.Handed
import Verif.Lemmas.Head
import Verif.Lemmas.Headers
import Verif.Lemmas.Holding
import Verif.Lemmas.Kept
import Verif.Lemmas.Leftover
import Verif.Lemmas.Map
import Verif.Lemmas.Marks
import Verif.Lemmas.Message
import Verif.Lemmas.Num
import Verif.Lemmas.Outgoing
import Verif.Lemmas.Panic
import Verif.Lemmas.Parser
import Verif.Lemmas.Peer
import Verif.Lemmas.Pipes
import Verif.Lemmas.ReadKept
import Verif.Lemmas.Reads
import Verif.Lemmas.Reliable
import Verif.Lemmas.Rest
import Verif.Lemmas.Script
import Verif.Lemmas.Server
import Verif.Lemmas.Store
import Verif.Lemmas.Stream
import Verif.Lemmas.StreamText
import Verif.Lemmas.Talker
import Verif.Lemmas.Trace
import Verif.Lemmas.Unheard
import Verif.Lemmas.Unicode
import Verif.Lemmas.Unrepeated
import Verif.Lemmas.Utf8
import Verif.Lemmas.Utf8Spec
import Verif.Lemmas.ZeroRead
import Verif.Model.Backends
import Verif.Model.Base
import Verif.Model.Body
import Verif.Model.BodyLaws
import Verif.Model.Client
import Verif.Model.Codes
import Verif.Model.Console
import Verif.Model.Counts
import Verif.Model.CrLf
import Verif.Model.ErrorText
import Verif.Model.Features
import Verif.Model.Files
import Verif.Model.Headers
import Verif.Model.Listing
import Verif.Model.Message
import Verif.Model.Nesting
import Verif.Model.Outgoing
import Verif.Model.Parser
import Verif.Model.Pipes
import Verif.Model.Programs
import Verif.Model.Reader
import Verif.Model.ReaderLaws
import Verif.Model.Server
import Verif.Model.Socket
import Verif.Model.StreamText
import Verif.Model.TestServer
import Verif.Model.Text
import Verif.Model.Tls
import Verif.Model.TlsStream
import Verif.Model.Url
import Verif.Model.Writer
import Verif.Model.WriterLaws
import Verif.Props.Abandon
import Verif.Props.Accept
import Verif.Props.Addresses
import Verif.Props.Alert
import Verif.Props.Allow
import Verif.Props.Amplify
import Verif.Props.Arrival
import Verif.Props.Asked
import Verif.Props.Attempts
import Verif.Props.Backends
import Verif.Props.Blame
import Verif.Props.Body
import Verif.Props.Breaks
import Verif.Props.Builds
import Verif.Props.Changing
import Verif.Props.Chosen
import Verif.Props.ChunkSize
import Verif.Props.Client
import Verif.Props.Close
import Verif.Props.Codes
import Verif.Props.Combine
import Verif.Props.Conform
import Verif.Props.Connect
import Verif.Props.Console
import Verif.Props.Conventions
import Verif.Props.Cost
import Verif.Props.Counts
import Verif.Props.Crowd
import Verif.Props.Cut
import Verif.Props.CutAnswer
import Verif.Props.CutCall
import Verif.Props.CutUpload
import Verif.Props.Decided
import Verif.Props.Decodable
import Verif.Props.DecodableResponse
import Verif.Props.Depends
import Verif.Props.Desync
import Verif.Props.Disjoint
import Verif.Props.Disk
import Verif.Props.Early
import Verif.Props.EndToEnd
import Verif.Props.Equality
import Verif.Props.ErrorText
import Verif.Props.Expect
import Verif.Props.Faults
import Verif.Props.Features
import Verif.Props.FileServer
import Verif.Props.Files
import Verif.Props.Flaky
import Verif.Props.Forward
import Verif.Props.Framing
import Verif.Props.Fresh
import Verif.Props.GotFrom
import Verif.Props.Grammar
import Verif.Props.Handed
import Verif.Props.Head
import Verif.Props.HeadMethod
import Verif.Props.Headers
import Verif.Props.Hoard
import Verif.Props.Holding
import Verif.Props.Inject
import Verif.Props.Interchange
import Verif.Props.Interim
import Verif.Props.Io
import Verif.Props.Isolated
import Verif.Props.Length
import Verif.Props.Lines
import Verif.Props.Listing
import Verif.Props.ListingServer
import Verif.Props.Literal
import Verif.Props.Message
import Verif.Props.MorePrograms
import Verif.Props.Named
import Verif.Props.Nesting
import Verif.Props.NoStd
import Verif.Props.NumberText
import Verif.Props.OldPeers
import Verif.Props.Once
import Verif.Props.OneShot
import Verif.Props.Opening
import Verif.Props.Order
import Verif.Props.Own
import Verif.Props.Parser
import Verif.Props.Partly
import Verif.Props.Pipes
import Verif.Props.Pool
import Verif.Props.Preface
import Verif.Props.Prints
import Verif.Props.Private
import Verif.Props.Programs
import Verif.Props.Puts
import Verif.Props.Quiet
import Verif.Props.Reads
import Verif.Props.Reason
import Verif.Props.Received
import Verif.Props.Remote
import Verif.Props.Repeat
import Verif.Props.Repeated
import Verif.Props.RepoTests
import Verif.Props.Request
import Verif.Props.Reset
import Verif.Props.Reuse
import Verif.Props.ReuseProgram
import Verif.Props.Rfc
import Verif.Props.SameHead
import Verif.Props.Scheme
import Verif.Props.SendFails
import Verif.Props.ServeFails
import Verif.Props.Server
import Verif.Props.Service
import Verif.Props.Silent
import Verif.Props.Store
import Verif.Props.StreamText
import Verif.Props.Streaming
import Verif.Props.Taken
import Verif.Props.Tape
import Verif.Props.Targets
import Verif.Props.TestServer
import Verif.Props.Tls
import Verif.Props.TlsClose
import Verif.Props.Tokens
import Verif.Props.Total
import Verif.Props.Unasked
import Verif.Props.Unfinished
import Verif.Props.Unheard
import Verif.Props.Unicode
import Verif.Props.Unread
import Verif.Props.UrlText
import Verif.Props.Vanishing
import Verif.Props.Verdict
import Verif.Spec.Addresses
import Verif.Spec.Alert
import Verif.Spec.Arrival
import Verif.Spec.Asked
import Verif.Spec.Attempts
import Verif.Spec.Backends
import Verif.Spec.Body
import Verif.Spec.Breaks
import Verif.Spec.Builds
import Verif.Spec.Chosen
import Verif.Spec.Client
import Verif.Spec.Close
import Verif.Spec.Codes
import Verif.Spec.Combine
import Verif.Spec.Console
import Verif.Spec.Conventions
import Verif.Spec.Counts
import Verif.Spec.Crowd
import Verif.Spec.CutAnswer
import Verif.Spec.CutCall
import Verif.Spec.Depends
import Verif.Spec.Early
import Verif.Spec.EndToEnd
import Verif.Spec.ErrorText
import Verif.Spec.Expect
import Verif.Spec.Faults
import Verif.Spec.Features
import Verif.Spec.FileServer
import Verif.Spec.Files
import Verif.Spec.Flaky
import Verif.Spec.Forward
import Verif.Spec.Fresh
import Verif.Spec.GotFrom
import Verif.Spec.Grammar
import Verif.Spec.Handed
import Verif.Spec.Headers
import Verif.Spec.Interchange
import Verif.Spec.Interim
import Verif.Spec.Io
import Verif.Spec.Isolated
import Verif.Spec.Listing
import Verif.Spec.ListingServer
import Verif.Spec.Literal
import Verif.Spec.Message
import Verif.Spec.Named
import Verif.Spec.Once
import Verif.Spec.OneShot
import Verif.Spec.Opening
import Verif.Spec.Order
import Verif.Spec.Own
import Verif.Spec.Panic
import Verif.Spec.Parser
import Verif.Spec.Partly
import Verif.Spec.Peer
import Verif.Spec.Pipes
import Verif.Spec.Prints
import Verif.Spec.Private
import Verif.Spec.Programs
import Verif.Spec.Reads
import Verif.Spec.Received
import Verif.Spec.Remote
import Verif.Spec.Repeat
import Verif.Spec.Repeated
import Verif.Spec.Reset
import Verif.Spec.Rfc
import Verif.Spec.SendFails
import Verif.Spec.Server
import Verif.Spec.Service
import Verif.Spec.Session
import Verif.Spec.Silent
import Verif.Spec.Store
import Verif.Spec.Stream
import Verif.Spec.StreamText
import Verif.Spec.Taken
import Verif.Spec.Tape
import Verif.Spec.Targets
import Verif.Spec.TestServer
import Verif.Spec.Text
import Verif.Spec.Tls
import Verif.Spec.Total
import Verif.Spec.Unfinished
import Verif.Spec.Unheard
import Verif.Spec.Unicode
import Verif.Spec.Unread
import Verif.Spec.Url
import Verif.Spec.Utf8
import Verif.Spec.Vanishing

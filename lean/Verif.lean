import Verif.Model.Hello
import Verif.Props.Hello
import Verif.Props.HelloSound
import Verif.Props.Netw
import Verif.Props.Counter
import Verif.Props.ConnTracker
import Verif.Props.Config
import Verif.Props.ConfigValid
import Verif.Props.Dispatch
import Verif.Props.Dial
import Verif.Props.Lifecycle
import Verif.Props.Bridge
import Verif.Props.Reconf
import Verif.Props.ReconfApplied
import Verif.Props.Path
import Verif.Props.Static
import Verif.Props.Sso
import Verif.Props.Handlers
import Verif.Props.Headers
import Verif.Props.Via
import Verif.Props.Xfcc
import Verif.Props.Keys
import Verif.Props.Token
import Verif.Props.TokenContents
import Verif.Props.Oidc
import Verif.Props.Console
import Verif.Props.Ocsp
import Verif.Props.Saml
import Verif.Props.Passkey
import Verif.Props.Authdata
import Verif.Props.Pki
import Verif.Props.Sshca
import Verif.Props.Logging
import Verif.Props.Revoke
import Verif.Props.QuicConn
import Verif.Props.WebSocket
import Verif.Props.Endpoints
import Verif.Props.Login
import Verif.Props.Cookies
import Verif.Props.Redirect
import Verif.Props.OcspHttp
import Verif.Props.RevokeAll
import Verif.Props.Jwks
import Verif.Props.Discovery
import Verif.Props.Pool
import Verif.Props.Front
import Verif.Props.Certs
import Verif.Props.Reload
import Verif.Props.ServerAuth
import Verif.Props.SamlDoc
import Verif.Props.Relay
import Verif.Props.QuicRelay
import Verif.Props.Resume
import Verif.Props.PkiPage
import Verif.Props.Handoff
import Verif.Model.EndToEnd
import Verif.Props.EndToEnd
import Verif.Model.Acme
import Verif.Props.Acme
import Verif.Props.PkiKeys
import Verif.Model.Ceremony
import Verif.Props.Ceremony
import Verif.Model.Expand
import Verif.Props.Expand
import Verif.Model.Rate
import Verif.Props.Rate
import Verif.Props.Locks
import Verif.Props.LogLines
import Verif.Props.Memory
import Verif.Props.Wire
import Verif.Props.Patience
import Verif.Props.PkiCache
import Verif.Props.Races
import Verif.Model.CrossSite
import Verif.Props.CrossSite
import Verif.Model.ClientKeys
import Verif.Props.ClientKeys
import Verif.Model.OcspSig
import Verif.Props.OcspSig
import Verif.Model.Replies
import Verif.Props.Replies
import Verif.Props.Sockets
import Verif.Props.Restart
import Verif.Props.Caching
import Verif.Props.Follow
import Verif.Props.Queries
import Verif.Props.Layers
import Verif.Props.Sign
import Verif.Props.Same
import Verif.Props.Audit
import Verif.Props.Defaults
import Verif.Props.Bandwidth
import Verif.Props.Numbers
import Verif.Props.Assertion
import Verif.Props.RelyingParty
import Verif.Props.Halt
import Verif.Props.KeyTypes
import Verif.Props.PlainHttp
import Verif.Props.Signpost
import Verif.Props.ByteArrays
import Verif.Props.Tally
import Verif.Props.Enrol
import Verif.Props.Spin
import Verif.Props.Pem
import Verif.Props.PemRead
import Verif.Props.Possession

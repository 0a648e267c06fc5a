{
 "claims": [
  {
   "property": "C01",
   "status": "proved",
   "theorems": [
    "Verif.Hello.hello_roundtrip",
    "Verif.Hello.hello_exact"
   ],
   "note": "hello_exact is the exact language accepted, both directions."
  },
  {
   "property": "C02",
   "status": "partial",
   "theorems": [
    "Verif.Hello.hello_total_violated",
    "Verif.Hello.hello_total_partial",
    "Verif.Hello.hello_lookahead_bounded",
    "Verif.Hello.hello_only_first_record",
    "Verif.Hello.hello_lookahead_exact",
    "Verif.Netw.writes_exact"
   ],
   "note": "Violated for a record of length zero (slice out of range, recovered by the handler). All other byte strings are handled without a panic."
  },
  {
   "property": "C03",
   "status": "proved",
   "theorems": [
    "Verif.Netw.peek_transparent",
    "Verif.Netw.reads_are_prefix",
    "Verif.Netw.peek_shows_next",
    "Verif.Netw.peek_bounded"
   ],
   "note": ""
  },
  {
   "property": "C04",
   "status": "partial",
   "theorems": [
    "Verif.Config.routing_violated",
    "Verif.Config.routing_partial",
    "Verif.Config.refused_iff_undeclared",
    "Verif.Dispatch.negotiated"
   ],
   "note": "Violated when a backend declares the empty ALPN protocol, which collides with the key of the default backend; proved for all other accepted configurations."
  },
  {
   "property": "C05",
   "status": "proved",
   "theorems": [
    "Verif.Config.pair_declared_once",
    "Verif.Config.noALPN_name_fresh",
    "Verif.Config.order_irrelevant"
   ],
   "note": "Over the whole of Check and the construction of the backends table."
  },
  {
   "property": "C06",
   "status": "proved",
   "theorems": [
    "Verif.Dispatch.unknown_name_alert",
    "Verif.Dispatch.undeclared_name_alert"
   ],
   "note": ""
  },
  {
   "property": "C07",
   "status": "proved",
   "theorems": [
    "Verif.Dispatch.ip_rules"
   ],
   "note": ""
  },
  {
   "property": "C08",
   "status": "proved",
   "theorems": [
    "Verif.Dispatch.no_contact_before_checks",
    "Verif.Dispatch.dialed_iff",
    "Verif.Dispatch.http_iff",
    "Verif.Dispatch.passthrough_failure_iff"
   ],
   "note": "TCP; the QUIC path is C85."
  },
  {
   "property": "C09",
   "status": "partial",
   "theorems": [
    "Verif.ConnTracker.maxopen_never_exceeded",
    "Verif.ConnTracker.maxopen_reachable_violated",
    "Verif.ConnTracker.maxopen_usable_partial",
    "Verif.ConnTracker.tracker_drains"
   ],
   "note": "The upper bound is proved. The limit itself is never reached: with MaxOpen n only n-1 connections are served."
  },
  {
   "property": "C10",
   "status": "partial",
   "theorems": [
    "Verif.Netw.callback_at_most_once",
    "Verif.Netw.callback_exactly_once",
    "Verif.Netw.inflight_restored_violated",
    "Verif.Netw.inflight_restored_partial",
    "Verif.Netw.inflight_unannotated"
   ],
   "note": "Exactly-once is proved for all interleavings. The in-flight count leaks if the connection is closed before the backend is recorded on it."
  },
  {
   "property": "C100",
   "status": "proved",
   "theorems": [
    "Verif.Cookies.login_cookies_exact",
    "Verif.Cookies.login_where"
   ],
   "note": "Browser as in RFC 6265; provider domains that are public suffixes are not considered."
  },
  {
   "property": "C101",
   "status": "partial",
   "theorems": [
    "Verif.Cookies.logout_ends_partial",
    "Verif.Cookies.logout_exact",
    "Verif.Cookies.logout_ends_violated"
   ],
   "note": "Holds while the provider's domain is unchanged; after a change of domain the old cookie cannot be removed (witness)."
  },
  {
   "property": "C102",
   "status": "partial",
   "theorems": [
    "Verif.Cookies.login_recognised_partial",
    "Verif.Cookies.login_recognised_violated"
   ],
   "note": "Holds unless the browser also has a login of another overlapping domain: only the first cookie is looked at (witness)."
  },
  {
   "property": "C103",
   "status": "proved",
   "theorems": [
    "Verif.Redirect.redirect_same_host",
    "Verif.Redirect.redirect_method"
   ],
   "note": "Location as written by url.URL.String and http.Redirect, decoded and resolved as a browser does."
  },
  {
   "property": "C104",
   "status": "partial",
   "theorems": [
    "Verif.Redirect.redirects_end_partial",
    "Verif.Redirect.redirects_end_violated"
   ],
   "note": "At most two redirects for configurations without file document roots and the like; a loop otherwise (witness)."
  },
  {
   "property": "C105",
   "status": "proved",
   "theorems": [
    "Verif.Cookies.session_exact",
    "Verif.Cookies.id_token_exact",
    "Verif.Cookies.nonce_exact"
   ],
   "note": ""
  },
  {
   "property": "C106",
   "status": "partial",
   "theorems": [
    "Verif.OcspHttp.ocsp_get_url",
    "Verif.OcspHttp.ocsp_get_forms",
    "Verif.OcspHttp.ocsp_bad_escape",
    "Verif.OcspHttp.ocsp_get_partial",
    "Verif.OcspHttp.ocsp_post",
    "Verif.OcspHttp.ocsp_method",
    "Verif.OcspHttp.ocsp_get_violated",
    "Verif.OcspHttp.ocsp_bad_letter",
    "Verif.OcspHttp.ocsp_no_slash"
   ],
   "note": "Proved for POST and for GET in the URL alphabet. In the standard alphabet of RFC 6960 requests whose text has a slash are refused or misread (witness)."
  },
  {
   "property": "C107",
   "status": "partial",
   "theorems": [
    "Verif.RevokeAll.revoke_all_run",
    "Verif.RevokeAll.revoke_all_partial",
    "Verif.RevokeAll.revoke_all_succeeds",
    "Verif.RevokeAll.revoke_all_violated",
    "Verif.RevokeAll.revoke_all_ok_iff",
    "Verif.RevokeAll.revoke_all_no_requests",
    "Verif.RevokeAll.revoke_all_broken_violated",
    "Verif.RevokeAll.parsed_nil"
   ],
   "note": "Proved for readable entries with a private key; a certificate whose entry has no key, or one that is not for signing, is skipped and the run still succeeds (witness); a private key that cannot be parsed at all ends the run with a panic (proved for every such cache)."
  },
  {
   "property": "C108",
   "status": "partial",
   "theorems": [
    "Verif.Jwks.jwks_lax",
    "Verif.Jwks.jwks_partial",
    "Verif.Jwks.says_unique",
    "Verif.Jwks.jwks_violated"
   ],
   "note": "Exact for RSA and Ed25519, and for EC keys whose coordinates have no leading zero byte; otherwise the coordinates are too short (witness), though readers that accept short coordinates still recover the key."
  },
  {
   "property": "C109",
   "status": "partial",
   "theorems": [
    "Verif.Discovery.split_authority",
    "Verif.Discovery.discovery_partial",
    "Verif.Discovery.discovery_issuer_partial",
    "Verif.Discovery.discovery_violated"
   ],
   "note": "Proved for Host headers without port and for the first server name; the code drops the port and always names the first server name (witness)."
  },
  {
   "property": "C11",
   "status": "proved",
   "theorems": [
    "Verif.Dispatch.acl_exact",
    "Verif.Dispatch.acl_no_confusion",
    "Verif.Dispatch.handshake_done"
   ],
   "note": ""
  },
  {
   "property": "C110",
   "status": "proved",
   "theorems": [
    "Verif.Discovery.alt_svc_exact",
    "Verif.Discovery.alt_svc_bad_port",
    "Verif.Discovery.alt_svc_response"
   ],
   "note": "The port is the one of the Host header, as in the code."
  },
  {
   "property": "C111",
   "status": "partial",
   "theorems": [
    "Verif.Pool.own_connection_partial",
    "Verif.Pool.header_missing_violated",
    "Verif.Pool.home_unique"
   ],
   "note": "Proved for HTTP/1 and HTTP/2; over HTTP/3 no PROXY header is sent although configured (witness)."
  },
  {
   "property": "C112",
   "status": "proved",
   "theorems": [
    "Verif.Pool.protocol_configured"
   ],
   "note": ""
  },
  {
   "property": "C113",
   "status": "proved",
   "theorems": [
    "Verif.Front.front_admission",
    "Verif.Front.untrusted_header",
    "Verif.Front.front_passthrough"
   ],
   "note": "The PROXY header decoder (go-proxyproto) is a parameter."
  },
  {
   "property": "C114",
   "status": "proved",
   "theorems": [
    "Verif.Certs.match_exact",
    "Verif.Certs.match_error",
    "Verif.Certs.certificate_configured",
    "Verif.Certs.certificate_managed"
   ],
   "note": "path.Match is transcribed from memory, for ASCII; a star is not limited to one label (example in the file)."
  },
  {
   "property": "C115",
   "status": "partial",
   "theorems": [
    "Verif.Reload.reload_served_partial",
    "Verif.Reload.reload_routed_partial",
    "Verif.Reload.reload_accepted",
    "Verif.Reload.reload_all",
    "Verif.Reload.reload_passthrough_violated",
    "Verif.Reload.reload_handshake_violated",
    "Verif.Reload.reload_violated",
    "Verif.Reload.recorded_served",
    "Verif.Reload.reload_named_violated"
   ],
   "note": "Proved for served TLS connections, and for others if their backend is the default of the name and has no list of certificates. Otherwise passthrough connections are closed, and a handshake in progress with a backend that lists certificates ends the process (witnesses)."
  },
  {
   "property": "C116",
   "status": "proved",
   "theorems": [
    "Verif.ServerAuth.connect_iff",
    "Verif.ServerAuth.server_authenticated",
    "Verif.ServerAuth.request_settings",
    "Verif.ServerAuth.build_spec",
    "Verif.ServerAuth.plain_iff"
   ],
   "note": "x509.Certificate.Verify is a parameter with assumptions (Spec.X509), and so are the PEM reader and OCSP; what crypto/tls and quic-go do with the settings is written down from their documentation."
  },
  {
   "property": "C117",
   "status": "partial",
   "theorems": [
    "Verif.ServerAuth.reachable_partial",
    "Verif.ServerAuth.check_build",
    "Verif.ServerAuth.nameless_violated",
    "Verif.ServerAuth.nameless_unreachable"
   ],
   "note": "Missing: in modes TLS and HTTPS a configuration without forwardServerName and insecureSkipVerify is accepted, and no server can be reached with it (violated theorem)."
  },
  {
   "property": "C118",
   "status": "partial",
   "theorems": [
    "Verif.SamlDoc.handle_iff",
    "Verif.SamlDoc.token_iff",
    "Verif.SamlDoc.claims_iff",
    "Verif.SamlDoc.comments_ignored",
    "Verif.SamlDoc.login_user",
    "Verif.SamlDoc.source_partial",
    "Verif.SamlDoc.source_violated"
   ],
   "note": "Proved except for the claim source: an attribute of that name replaces the issuer (witness). The signature check is a parameter; the XML library is written down from its documentation."
  },
  {
   "property": "C119",
   "status": "partial",
   "theorems": [
    "Verif.Relay.orderly_partial",
    "Verif.Relay.delivered_partial",
    "Verif.Relay.arrived_prefix",
    "Verif.Relay.orderly_violated",
    "Verif.Relay.oneway_violated",
    "Verif.Relay.delivered_violated",
    "Verif.Relay.close_both",
    "Verif.Relay.half_close",
    "Verif.Relay.half_close_refused",
    "Verif.Relay.recv_unwritten",
    "Verif.Relay.after_end"
   ],
   "note": "Proved if nobody breaks anything off, no deadline passes and the end of the opposite direction does not end the connection by configuration. In general the code violates it: a reset or lost source is passed on as an orderly end (QUIC, TLS), a one-way stream is ended in order after the half-close time, and a TCP connection with unread data is reset."
  },
  {
   "property": "C12",
   "status": "partial",
   "theorems": [
    "Verif.Dispatch.revoked_refused_violated",
    "Verif.Dispatch.revoked_refused_partial",
    "Verif.Dispatch.revoked_refused_noh3_partial",
    "Verif.Dispatch.verifyConnection_exact"
   ],
   "note": "Violated for a backend that declares h3 reached over TCP; proved for accepted configurations whose serving backend does not declare h3."
  },
  {
   "property": "C120",
   "status": "partial",
   "theorems": [
    "Verif.Relay.ends_partial",
    "Verif.Relay.ends_quic_partial",
    "Verif.Relay.timer_partial",
    "Verif.Relay.ends_violated",
    "Verif.Relay.timer_violated"
   ],
   "note": "Proved for TCP and TLS at both ends, and for two QUIC streams as long as nothing is broken off. Violated with QUIC streams, whose Close only ends the writing side, and for one-way streams, for which the clock starts at once."
  },
  {
   "property": "C121",
   "status": "partial",
   "theorems": [
    "Verif.QuicRelay.client_gone_iff",
    "Verif.QuicRelay.client_gone_partial",
    "Verif.QuicRelay.server_gone_ignored",
    "Verif.QuicRelay.late_stream_hangs",
    "Verif.QuicRelay.together_violated",
    "Verif.QuicRelay.opened_iff",
    "Verif.QuicRelay.oneway_back",
    "Verif.QuicRelay.direction_end",
    "Verif.QuicRelay.late_data_ends"
   ],
   "note": "Exactly when the server's connection is closed after the client has gone: not while the server keeps silent on a stream. The other direction never holds: the client's connection is kept, and streams opened later are neither relayed nor ended."
  },
  {
   "property": "C122",
   "status": "partial",
   "theorems": [
    "Verif.QuicRelay.settings_partial",
    "Verif.QuicRelay.settings_violated"
   ],
   "note": "Holds for the streams a client opens, and for the others only if both settings are the same: bridgeConns gets the opener as client."
  },
  {
   "property": "C123",
   "status": "partial",
   "theorems": [
    "Verif.Resume.tcp_own_cas",
    "Verif.Resume.tcp_as_full_partial",
    "Verif.Resume.tcp_revoked_ticket",
    "Verif.Resume.tickets_shown",
    "Verif.Resume.quic_own_cas_partial",
    "Verif.Resume.quic_own_cas_violated",
    "Verif.Resume.chain_now_violated",
    "Verif.Resume.resumed_cert",
    "Verif.Resume.authorized_ticket",
    "Verif.Resume.quic_ticket"
   ],
   "note": "Proved for TCP as far as the backend's own CAs are concerned, and as a whole if certificates do not outlive their CAs. On QUIC all backends share the ticket keys, and with the Go release of go.mod a certificate of another backend's CA is accepted (witness); proved there if backends that ask for certificates have the same CAs or crypto/tls checks again. What crypto/tls does with tickets is written down from memory."
  },
  {
   "property": "C124",
   "status": "partial",
   "theorems": [
    "Verif.PkiPage.listed_iff",
    "Verif.PkiPage.listed_order",
    "Verif.PkiPage.revoke_allowed",
    "Verif.PkiPage.revoke_agrees",
    "Verif.PkiPage.revoke_offered_iff",
    "Verif.PkiPage.login_needed",
    "Verif.PkiPage.buttons_work_partial",
    "Verif.PkiPage.offered_revoke_violated",
    "Verif.PkiPage.offered_view_violated",
    "Verif.PkiPage.ca_revocable_violated",
    "Verif.PkiPage.download_iff",
    "Verif.PkiPage.static_iff",
    "Verif.PkiPage.denied_iff",
    "Verif.PkiPage.internal_iff"
   ],
   "note": "The list and the conditions for a revocation are proved in full. The buttons work except an administrator's Revoke for certificates of others and View and Download of revoked certificates (witnesses)."
  },
  {
   "property": "C125",
   "status": "partial",
   "theorems": [
    "Verif.Handoff.in_use_partial",
    "Verif.Handoff.swallowed_forever",
    "Verif.Handoff.never_released",
    "Verif.Handoff.closed_chan_drained",
    "Verif.Handoff.alive_partial",
    "Verif.Handoff.served_or_closed_violated",
    "Verif.Handoff.late_stream_violated",
    "Verif.Handoff.alive_violated",
    "Verif.Handoff.stop_ends_serving",
    "Verif.Handoff.dead_final",
    "Verif.Handoff.stream_of_open",
    "Verif.Handoff.handed_over",
    "Verif.Handoff.death"
   ],
   "note": "Proved while no reload or stop happens, and the second part for TCP. After a reload connections may be swallowed by the old backend's listener, neither served nor closed, and a QUIC stream may panic on the closed channel, which ends the process (witnesses)."
  },
  {
   "property": "C126",
   "status": "partial",
   "theorems": [
    "Verif.EndToEnd.tcp_checked_partial",
    "Verif.EndToEnd.quic_checked_partial",
    "Verif.EndToEnd.login_honoured",
    "Verif.EndToEnd.quic_mode",
    "Verif.EndToEnd.quic_served"
   ],
   "note": "Composition of the models of the ClientHello parser, PROXY header, routing, admission, TLS handshake, HTTP handlers and tokens. Partial for the reasons of the parts: rewrite rules of local OpenID Connect servers (C40, C41), bearer tokens of another provider with the same issuer (C41), empty protocol names (C04), revocation if the client offers h3 over TCP (C12), raw backends that declare h3 (C85), addresses without '@' (C26). Raw modes ignore the policy (C27) and are not HTTP."
  },
  {
   "property": "C127",
   "status": "partial",
   "theorems": [
    "Verif.Acme.handshake_partial",
    "Verif.Acme.handshake_proper_partial",
    "Verif.Acme.client_certificate_partial",
    "Verif.Acme.client_certificate_violated",
    "Verif.Acme.handshake_default_violated",
    "Verif.Acme.quic_denied_violated"
   ],
   "note": "Holds for TCP handshakes without a reload in between. Violated: requests for client certificates ignore acceptTOS and tlsCertificates; the default server name is read again in the handshake; QUIC clients that the IP rules deny. Names with '/' are excluded (path.Match). What autocert does with a request (cache, Prompt) is not modelled."
  },
  {
   "property": "C128",
   "status": "partial",
   "theorems": [
    "Verif.PkiKeys.signatures_verify",
    "Verif.PkiKeys.key_wiped",
    "Verif.PkiKeys.answers_current_partial",
    "Verif.PkiKeys.ca_current_partial",
    "Verif.PkiKeys.expired_delegate_violated",
    "Verif.PkiKeys.panic_violated",
    "Verif.PkiKeys.ca_expired_violated"
   ],
   "note": "Signatures and the wiping of the key are proved without conditions, for a decoder that makes new objects (C142 is about the other kind). Dates: partial. After a new delegate certificate could not be stored, the next list is signed with an expired one, or the request panics (witnesses). The CA certificate is only renewed when the proxy starts, and issued certificates outlive it (witness)."
  },
  {
   "property": "C129",
   "status": "proved",
   "theorems": [
    "Verif.Ceremony.forged_no_steps",
    "Verif.Ceremony.forged_harmless",
    "Verif.Ceremony.forged_ignored",
    "Verif.Ceremony.pages_unframed"
   ],
   "note": "Both handlers (HandleCallback, ManageKeys). That other sites cannot set the header is an assumption about browsers (no CORS headers are sent). The example of a logged-in user without the header is in the file."
  },
  {
   "property": "C13",
   "status": "proved",
   "theorems": [
    "Verif.Dial.roundrobin_in_range",
    "Verif.Dial.roundrobin_fair",
    "Verif.Pool.rotation_shared"
   ],
   "note": ""
  },
  {
   "property": "C130",
   "status": "partial",
   "theorems": [
    "Verif.Ceremony.no_panic",
    "Verif.Ceremony.done_iff",
    "Verif.Ceremony.refresh_iff",
    "Verif.Ceremony.addkey_answer",
    "Verif.Ceremony.register_stored",
    "Verif.Ceremony.delete_answer_partial",
    "Verif.Ceremony.delete_answer_violated",
    "Verif.Ceremony.register_page_true",
    "Verif.Ceremony.login_page",
    "Verif.Ceremony.other_login",
    "Verif.Ceremony.nonce_exchange",
    "Verif.Ceremony.refusals",
    "Verif.Ceremony.keys_page",
    "Verif.Ceremony.manage_hint"
   ],
   "note": "Violated by the code for deletions: with a failing storage the answer is ok although the key is still there (delete_answer_violated); proved for working storage. All else holds."
  },
  {
   "property": "C131",
   "status": "partial",
   "theorems": [
    "Verif.Ceremony.manage_elsewhere",
    "Verif.Ceremony.manage_reachable_partial",
    "Verif.Ceremony.manage_unreachable",
    "Verif.Ceremony.manage_reachable_violated"
   ],
   "note": "Violated by the code for endpoints whose host is not written in the canonical form (capital letters, Unicode): every request is redirected (manage_unreachable). Proved for all others."
  },
  {
   "property": "C132",
   "status": "partial",
   "theorems": [
    "Verif.Ceremony.offered",
    "Verif.Ceremony.registration_offered",
    "Verif.Ceremony.pending_kept",
    "Verif.Ceremony.login_works",
    "Verif.Ceremony.register_iff",
    "Verif.Ceremony.registration_iff",
    "Verif.Ceremony.port_blocks_registration",
    "Verif.Ceremony.registration_violated"
   ],
   "note": "Violated by the code for endpoints with a port: the options name the site with the port, the answer is compared with the name without (port_blocks_registration). registration_iff shows that this is the only obstacle."
  },
  {
   "property": "C133",
   "status": "proved",
   "theorems": [
    "Verif.Http.configured_header",
    "Verif.Http.hop_by_hop_removed",
    "Verif.Http.other_headers"
   ],
   "note": "Header names are canonical and a map's names distinct. Connection, Upgrade and Te, which the reverse proxy puts back for upgrades and trailers, are left out."
  },
  {
   "property": "C134",
   "status": "proved",
   "theorems": [
    "Verif.Http.expand_pieces",
    "Verif.Http.variable_value",
    "Verif.Http.email_header_unforgeable",
    "Verif.Http.user_id_equivalent"
   ],
   "note": "os.Expand is modelled from its source; fmt.Sprint of claims that are not strings is a parameter."
  },
  {
   "property": "C135",
   "status": "partial",
   "theorems": [
    "Verif.Http.host_told_partial",
    "Verif.Http.host_told_violated"
   ],
   "note": "Violated: a request without a Host header is accepted for the connection's server name, but the backend server is told the hash that names the connection pool, because the Host entry of the header map is never sent. Proved for all other requests."
  },
  {
   "property": "C136",
   "status": "partial",
   "theorems": [
    "Verif.Rate.rate_admitted",
    "Verif.Rate.rate_forwarded_partial",
    "Verif.Rate.rate_forwarded_violated",
    "Verif.Rate.rate_first_requests_violated",
    "Verif.Http.rate_limited",
    "Verif.Dispatch.limited_not_served",
    "Verif.Dispatch.quic_limited_not_served"
   ],
   "note": "The limiter's bound is proved for every history. That everything forwarded is counted holds for relayed connections and for HTTP/3 requests that do not overlap with the first of their connection. Violated: over HTTP/1 and HTTP/2 only the connection is counted, because the type assertion in backend-http.go:243 fails for a *tls.Conn; over HTTP/3 requests that begin together are all taken for the first. x/time/rate is modelled from memory, in exact arithmetic."
  },
  {
   "property": "C137",
   "status": "partial",
   "theorems": [
    "Verif.Locks.no_deadlock_partial",
    "Verif.Locks.rest_partial",
    "Verif.Locks.steps_bounded",
    "Verif.Locks.mutual_exclusion",
    "Verif.Locks.ssh_stalled_violated",
    "Verif.Locks.cacert_stalled_violated",
    "Verif.Locks.pki_page_stalled_violated",
    "Verif.Locks.reload_stalled_violated",
    "Verif.Locks.console_stalled_violated",
    "Verif.Locks.stop_dead_violated"
   ],
   "note": "Every lock of the program is in the model, with the critical sections of every function that takes one. Violated by six functions, each with a run that stops: an SSH certificate request whose body does not come, the CA certificate and the certificate page when they are not read, a reload with a discovery document that does not come, the console while a PROXY header is awaited, and Stop and Shutdown while a QUIC connection is in its handshake, which is a deadlock. Proved for all other code. Transport.Close of quic-go is modelled from memory. Locks of certmanager (a test helper) and inside libraries are not modelled."
  },
  {
   "property": "C138",
   "status": "partial",
   "theorems": [
    "Verif.LogLines.request_line_partial",
    "Verif.LogLines.path_line_iff",
    "Verif.LogLines.url_faithful",
    "Verif.LogLines.conn_line_partial",
    "Verif.LogLines.conn_text_iff",
    "Verif.LogLines.request_forged_violated",
    "Verif.LogLines.static_forged_violated",
    "Verif.LogLines.quic_name_forged_violated",
    "Verif.LogLines.quic_reason_forged_violated",
    "Verif.LogLines.quote_read",
    "Verif.LogLines.name_read",
    "Verif.LogLines.agent_read",
    "Verif.LogLines.attributed",
    "Verif.LogLines.agent_short"
   ],
   "note": "Holds for every message but three kinds, which show the client's text undecorated: the decoded path (static files, redirects), the name and protocols of a QUIC client without a backend, and the reason a QUIC client gives for closing. For each a client can write any line, which is proved too."
  },
  {
   "property": "C139",
   "status": "partial",
   "theorems": [
    "Verif.Memory.events_bounded",
    "Verif.Memory.events_counted",
    "Verif.Memory.server_bounded",
    "Verif.Memory.passkey_bounded",
    "Verif.Memory.passkey_logins_partial",
    "Verif.Memory.passkey_logins_violated",
    "Verif.Memory.oidc_logins_partial",
    "Verif.Memory.oidc_logins_violated",
    "Verif.Memory.saml_logins_partial",
    "Verif.Memory.saml_logins_violated"
   ],
   "note": "Holds for events, metrics, codes, access tokens and challenges. Logins that have begun are forgotten only when somebody comes back (with SAML: with an assertion that the identity provider has signed); until then each request is kept for ever, which is proved too."
  },
  {
   "property": "C14",
   "status": "partial",
   "theorems": [
    "Verif.Dial.dial_tries_all_violated",
    "Verif.Dial.dial_tries_all_partial",
    "Verif.Dial.dial_fails_only_if_all_down_partial",
    "Verif.Dial.dial_attempt_count",
    "Verif.Dial.dial_destination"
   ],
   "note": "Violated when dials on the same address list interleave: they share the position."
  },
  {
   "property": "C140",
   "status": "partial",
   "theorems": [
    "Verif.Wire.line_kept",
    "Verif.Wire.target_kept",
    "Verif.Wire.no_second_meaning",
    "Verif.Wire.body_partial",
    "Verif.Wire.body_iff",
    "Verif.Wire.body_violated"
   ],
   "note": "Holds for the request line, and for bodies whose length is announced or whose method is POST, PUT or PATCH. The body of any other request is dropped silently, which is proved too."
  },
  {
   "property": "C141",
   "status": "partial",
   "theorems": [
    "Verif.Patience.hello_bounded",
    "Verif.Patience.slow_refused",
    "Verif.Patience.prompt_heard",
    "Verif.Patience.held_partial",
    "Verif.Patience.held_forever_iff",
    "Verif.Patience.held_violated",
    "Verif.Patience.handshake_required",
    "Verif.Patience.http_bounded",
    "Verif.Patience.http_prompt",
    "Verif.Patience.http_slow",
    "Verif.Patience.http_idle"
   ],
   "note": "Holds except for connections above MaxOpen of a trusted proxy that does not send its PROXY header: these are held forever, and only these, which is proved too."
  },
  {
   "property": "C142",
   "status": "partial",
   "theorems": [
    "Verif.PkiCache.verifies_partial",
    "Verif.PkiCache.restart_repairs",
    "Verif.PkiCache.verifies_violated",
    "Verif.PkiCache.verifies_violated_general"
   ],
   "note": "Holds if new delegate certificates can be stored, and after a restart. If one cannot be stored, and the decoder reuses the objects of a list as encoding/json does, then answers carry one certificate and are signed with the key of another until the next rotation (witness)."
  },
  {
   "property": "C143",
   "status": "partial",
   "theorems": [
    "Verif.Races.no_race_partial",
    "Verif.Races.no_race_elsewhere",
    "Verif.Races.no_race_violated"
   ],
   "note": "There is no race on anything but six pieces of data, and for these none unless one of ten functions is called that use them without the lock: Proxy.cfg (logging, MaxOpen, AcceptTOS, revokeUnusedCertificates), the backends of the old configuration (Reconfigure), Backend.http3Server, the database of a PKI with its parsed certificates (maybeRotateDelegateCert), and lastActive of a WebSocket. Each of these does race (witnesses)."
  },
  {
   "property": "C144",
   "status": "partial",
   "theorems": [
    "Verif.CrossSite.no_effect_partial",
    "Verif.CrossSite.passkeys_untouched_partial",
    "Verif.CrossSite.logout_violated",
    "Verif.CrossSite.worker_violated",
    "Verif.CrossSite.own_request",
    "Verif.CrossSite.own_revoke",
    "Verif.CrossSite.own_socket",
    "Verif.CrossSite.needs_login",
    "Verif.CrossSite.covered_needs_login"
   ],
   "note": "No request that a page of another site can make has an effect, except for two: a link to the logout page ends the session, and a form for the address of the service worker of the certificate page has a certificate issued in the user's name, because the worker adds the header against forged requests itself."
  },
  {
   "property": "C145",
   "status": "partial",
   "theorems": [
    "Verif.ClientKeys.package_own",
    "Verif.ClientKeys.keys_not_shared",
    "Verif.ClientKeys.forgotten_partial",
    "Verif.ClientKeys.forgotten_violated",
    "Verif.ClientKeys.key_lost_violated",
    "Verif.ClientKeys.package_made",
    "Verif.ClientKeys.names_exact",
    "Verif.ClientKeys.names_split",
    "Verif.ClientKeys.kind_asked",
    "Verif.ClientKeys.file_name",
    "Verif.ClientKeys.kind_exact",
    "Verif.ClientKeys.blank_exact",
    "Verif.ClientKeys.request_exact"
   ],
   "note": "Keys are forgotten only if the server answers with a certificate; if it refuses, key and password stay in memory. With a format that is not known the certificate is issued and the key is lost."
  },
  {
   "property": "C146",
   "status": "partial",
   "theorems": [
    "Verif.OcspSig.answer_signed_partial",
    "Verif.OcspSig.relied_signed_partial",
    "Verif.OcspSig.staple_forged_violated",
    "Verif.OcspSig.forged_kept_violated",
    "Verif.OcspSig.client_partial",
    "Verif.OcspSig.client_accepts",
    "Verif.OcspSig.client_forged_violated",
    "Verif.OcspSig.client_issuer_violated",
    "Verif.OcspSig.client_root_violated",
    "Verif.OcspSig.Example.fetched_other_violated"
   ],
   "note": "The OCSP library takes the key of any certificate of the issuer for that of an appointed responder, and the proxy relies on it: the holder of a revoked client certificate staples an answer signed with its own key, is admitted, and stays admitted until the time it has chosen. The command line client can be deceived in the same way, and by a second certificate of the server's choice. Proved under the assumption that other holders of certificates do not sign answers. The rules of golang.org/x/crypto/ocsp are transcribed from memory."
  },
  {
   "property": "C147",
   "status": "partial",
   "theorems": [
    "Verif.Replies.complete_partial",
    "Verif.Replies.whole_delivered",
    "Verif.Replies.truncated_violated",
    "Verif.Replies.decoded_violated",
    "Verif.Replies.status_kept",
    "Verif.Replies.headers_kept_partial",
    "Verif.Replies.hop_removed",
    "Verif.Replies.own_kept",
    "Verif.Replies.nobody_complete",
    "Verif.Replies.unrecovered",
    "Verif.Replies.unrecovered_decoded",
    "Verif.Replies.none_empty"
   ],
   "note": "Status and headers are kept, whole answers are delivered, and answers with an announced length that look complete are. Violated by answers without a length whose connection breaks: the handler recovers from the panic with which ReverseProxy wants to reset the client's connection. Also violated by gzip answers of HTTP/1 servers to clients that name no encodings. Not modelled: trailers, informational answers, HTTP/1.0. The rules of net/http are transcribed from memory."
  },
  {
   "property": "C148",
   "status": "partial",
   "theorems": [
    "Verif.Sockets.failed_tidy_partial",
    "Verif.Sockets.returned_in_use",
    "Verif.Sockets.closed_tidy_partial",
    "Verif.Sockets.failed_violated",
    "Verif.Sockets.closed_violated",
    "Verif.Sockets.listed_partial",
    "Verif.Sockets.ghost_violated",
    "Verif.Sockets.stays_listed"
   ],
   "note": "True for TCP and TLS. Violated by streams in mode QUIC: a connection whose stream cannot be opened is not closed, and closing a stream leaves its connection to the server. Violated by a connection of dialQUICBackend that ends before it is listed: it is listed for good. Not modelled: idle connections of http.Transport; that idle QUIC connections end after 30 seconds if the server lets them."
  },
  {
   "property": "C149",
   "status": "partial",
   "theorems": [
    "Verif.Restart.like_restart_partial",
    "Verif.Restart.accepted_same",
    "Verif.Restart.settings_of_start",
    "Verif.Restart.quic_off_violated",
    "Verif.Restart.quic_on_violated",
    "Verif.Restart.account_violated",
    "Verif.Restart.limit_violated",
    "Verif.Restart.quic_first",
    "Verif.Restart.advertised",
    "Verif.Restart.advertises"
   ],
   "note": "True if QUIC stays on or off, the account of the certificate authority stays the same, and no group of limits was without a name. Violated by turning QUIC on or off, by changing Email or AcceptTOS, and by removing a group of limits without a name. Not modelled: contents of certificate files that change while the configuration does not."
  },
  {
   "property": "C15",
   "status": "partial",
   "theorems": [
    "Verif.Lifecycle.chan_closed_once",
    "Verif.Lifecycle.chan_close_waits",
    "Verif.Lifecycle.no_new_after_close",
    "Verif.Lifecycle.chan_closes_when_drained",
    "Verif.Lifecycle.raw_backend_close_violated",
    "Verif.Lifecycle.handoff_never_panics_violated",
    "Verif.Lifecycle.handoff_never_panics_partial"
   ],
   "note": "Proved for backends with an HTTP server. Closing a raw backend does nothing, and a connection looked up just before the close can be sent to the closed channel."
  },
  {
   "property": "C150",
   "status": "partial",
   "theorems": [
    "Verif.Caching.through_cache_partial",
    "Verif.Caching.confirmed_current",
    "Verif.Caching.same_confirmed",
    "Verif.Caching.personal_fresh",
    "Verif.Caching.errors_current_partial",
    "Verif.Caching.crl_error_violated",
    "Verif.Caching.status_violated",
    "Verif.Caching.ocsp_in_date",
    "Verif.Caching.crl_late_partial",
    "Verif.Caching.crl_late_violated",
    "Verif.Caching.jwks_copy_good_partial",
    "Verif.Caching.jwks_copy_violated",
    "Verif.Caching.delegate_known_partial",
    "Verif.Caching.delegate_violated",
    "Verif.Caching.ca_pem_complete",
    "Verif.Caching.ca_der_partial",
    "Verif.Caching.ca_der_violated",
    "Verif.Caching.answered",
    "Verif.Caching.delegate_stays"
   ],
   "note": "Violated by an error of ServeCRL, which may be kept for half an hour; by the page with a user's claims, which does not forbid shared caches to keep it; by revocation lists that are almost an hour out of date; by a delegate that signs before copies of the certificates have it; and by the DER form of the certificates, which is several certificates in a row. True otherwise, for a cache that keeps nothing without being told to."
  },
  {
   "property": "C151",
   "status": "partial",
   "theorems": [
    "Verif.Follow.in_force",
    "Verif.Follow.invalid_kept",
    "Verif.Follow.picked_up",
    "Verif.Follow.trust_taken_partial",
    "Verif.Follow.trust_violated",
    "Verif.Follow.trust_inline_partial"
   ],
   "note": "Violated for certificates in files of their own: Reconfigure compares only the text of the configuration, so that a change of such a file is not noticed. True if the certificates are in the configuration, and for the configuration itself."
  },
  {
   "property": "C152",
   "status": "partial",
   "theorems": [
    "Verif.Queries.login_arrives_partial",
    "Verif.Queries.login_query_violated",
    "Verif.Queries.login_fragment_violated",
    "Verif.Queries.saml_arrives",
    "Verif.Queries.saml_keeps_partial",
    "Verif.Queries.saml_document",
    "Verif.Queries.code_arrives",
    "Verif.Queries.code_keeps_partial",
    "Verif.Queries.own_violated",
    "Verif.Queries.round_trip",
    "Verif.Queries.token_request",
    "Verif.Queries.passkey_arrives",
    "Verif.Queries.escape_read",
    "Verif.Queries.saml_text",
    "Verif.Queries.authorize_known"
   ],
   "note": "Violated for an authorization endpoint with a query (the response type is lost) or a fragment (everything is lost), and for parameters of configured URLs whose text has a semicolon or a bad escape (they are dropped). True otherwise, and for forms and documents always."
  },
  {
   "property": "C153",
   "status": "partial",
   "theorems": [
    "Verif.Layers.no_panic",
    "Verif.Layers.addresses",
    "Verif.Layers.tracked",
    "Verif.Layers.keepalive_iff",
    "Verif.Layers.bridged_line",
    "Verif.Layers.stream_line_violated",
    "Verif.Layers.stream_line_partial",
    "Verif.Layers.request_line_partial",
    "Verif.Layers.request_line_violated",
    "Verif.Layers.console_partial",
    "Verif.Layers.console_violated",
    "Verif.Layers.upgrade_line",
    "Verif.Layers.server_line",
    "Verif.Layers.unnamed_line"
   ],
   "note": "Violated for streams of QUIC connections that are bridged to TCP servers: a line never shows the connection of its own stream, and the page shows one server for all streams; and for requests that use a pooled connection, whose lines show the connection that was made last. True for all other connections, for mode QUIC, and for the addresses of clients."
  },
  {
   "property": "C154",
   "status": "proved",
   "theorems": [
    "Verif.Sign.fill_octets",
    "Verif.Sign.der_read",
    "Verif.Sign.sign_right",
    "Verif.Sign.accepted_iff",
    "Verif.Sign.made_accepted",
    "Verif.Sign.other_algorithms",
    "Verif.Sign.one_meaning",
    "Verif.Sign.other_text",
    "Verif.Sign.long_read",
    "Verif.Sign.long_refused",
    "Verif.Sign.element_strict",
    "Verif.Sign.integer_strict"
   ],
   "note": "The codes of DER, base64 and RFC 7515 are read byte by byte; JSON and the mathematics of signatures are parameters."
  },
  {
   "property": "C155",
   "status": "partial",
   "theorems": [
    "Verif.Dispatch.hidden_partial",
    "Verif.Dispatch.hidden_acme_violated",
    "Verif.Dispatch.hidden_quic_violated",
    "Verif.Http.local_partial",
    "Verif.Http.local_violated",
    "Verif.Config.local_check_partial",
    "Verif.Config.local_check_violated",
    "Verif.Same.dials_partial",
    "Verif.Same.dials_violated"
   ],
   "note": "False for clients that offer only acme-tls/1 and for QUIC, for requests to mode LOCAL for other hosts, for the pages of certificate authorities, and for the rate limit of streams; the partial theorems are the rest."
  },
  {
   "property": "C156",
   "status": "partial",
   "theorems": [
    "Verif.Audit.one_line_partial",
    "Verif.Audit.unlogged_violated",
    "Verif.Audit.failed_unlogged_violated",
    "Verif.Audit.line_names",
    "Verif.Audit.refusal_logged",
    "Verif.Audit.told_status",
    "Verif.Audit.login_unlogged_violated",
    "Verif.Audit.own_unlogged_violated"
   ],
   "note": "The silent requests are characterised exactly: 421, 500, 508, 502 of an unreachable server, the redirect with a new ID token, a login whose token cannot be made, and the pages of the profiler. All others leave one line, with the right names and status."
  },
  {
   "property": "C157",
   "status": "partial",
   "theorems": [
    "Verif.Audit.blind_partial",
    "Verif.Audit.query_hidden_partial",
    "Verif.Audit.query_logged_violated",
    "Verif.Audit.session_logged_violated",
    "Verif.Audit.session_quiet",
    "Verif.Audit.session_missing"
   ],
   "note": "Holds for cookies, credentials, other headers and bodies. The parameters of URLs are logged verbatim except at redirects, existing files and callbacks; session identifiers are logged when a token is used in another session."
  },
  {
   "property": "C158",
   "status": "partial",
   "theorems": [
    "Verif.Defaults.written_partial",
    "Verif.Defaults.quic_close_violated",
    "Verif.Defaults.effective_partial",
    "Verif.Defaults.effective_top",
    "Verif.Defaults.override_effective",
    "Verif.Defaults.header_effective"
   ],
   "note": "Holds for every setting but `serverCloseEndsConnection` in mode QUIC, whose default is false there."
  },
  {
   "property": "C159",
   "status": "partial",
   "theorems": [
    "Verif.Bandwidth.bound_partial",
    "Verif.Bandwidth.bound_total",
    "Verif.Bandwidth.prompt",
    "Verif.Bandwidth.pile_violated",
    "Verif.Bandwidth.small_reads_violated",
    "Verif.Bandwidth.zero_violated",
    "Verif.Bandwidth.call_fails_iff"
   ],
   "note": "The bound holds up to what was admitted before the period and waited for data, which is unbounded. Calls wait only when all that is allowed has been asked for; but a read asks for its whole buffer, so that small reads get a fraction of the limit. A limit that is left out is 0, and ends all transfers after 128 kB."
  },
  {
   "property": "C16",
   "status": "partial",
   "theorems": [
    "Verif.Lifecycle.shutdown_waits",
    "Verif.Lifecycle.shutdown_terminates_violated",
    "Verif.Lifecycle.shutdown_ignores_raw_violated",
    "Verif.Lifecycle.shutdown_terminates_partial",
    "Verif.Lifecycle.shutdown_deadline",
    "Verif.Lifecycle.shutdown_open"
   ],
   "note": "Safety is proved. Termination fails for two races (lost wake-up, mode known late) and is proved otherwise."
  },
  {
   "property": "C160",
   "status": "partial",
   "theorems": [
    "Verif.Numbers.works_partial",
    "Verif.Numbers.works_iff",
    "Verif.Numbers.accepted",
    "Verif.Numbers.open_violated",
    "Verif.Numbers.last_violated",
    "Verif.Numbers.rate_violated",
    "Verif.Numbers.timeout_violated",
    "Verif.Numbers.reauth_violated",
    "Verif.Numbers.round_violated",
    "Verif.Numbers.once",
    "Verif.Numbers.works_violated"
   ],
   "note": "No number is refused. Negative ones, a maxOpen of 1, and a limit of less than 204 open files leave a proxy that refuses everybody, fails every connection, or asks for logins for ever; `works_iff` says exactly which. With all others requests are forwarded."
  },
  {
   "property": "C161",
   "status": "partial",
   "theorems": [
    "Verif.Assertion.accepted_iff",
    "Verif.Assertion.ec_partial",
    "Verif.Assertion.rsa_violated",
    "Verif.Assertion.algorithm",
    "Verif.Assertion.bound",
    "Verif.Assertion.register_iff",
    "Verif.Assertion.login_iff",
    "Verif.Assertion.usable_partial",
    "Verif.Assertion.usable_violated",
    "Verif.Assertion.unknown_violated"
   ],
   "note": "Proved for ES256. RSA keys, which are offered to authenticators, are registered but no signature is ever accepted for them, because the exponent is read as a number and not as the byte string of RFC 8230; and keys of any other kind are registered too. The CBOR decoder and the cryptographic functions are parameters; `bound` is a reduction to a collision of SHA-256."
  },
  {
   "property": "C162",
   "status": "partial",
   "theorems": [
    "Verif.RelyingParty.exchange_partial",
    "Verif.RelyingParty.basic_violated",
    "Verif.RelyingParty.info_partial",
    "Verif.RelyingParty.again_violated",
    "Verif.RelyingParty.expires_violated"
   ],
   "note": "Proved for clients that send their password in the body: the exchange, and one request for user information, within two minutes of the login. The discovery document stands for the password in the Authorization header, which is never read; the second request with an access token is refused; and the two minutes begin with the login, so that a token can be refused before the 90 seconds of the answer are over. Requests are atomic; the ID token is in `Verif/Model/Token.lean`."
  },
  {
   "property": "C163",
   "status": "proved",
   "theorems": [
    "Verif.Halt.nothing_relayed",
    "Verif.Halt.none_accepted",
    "Verif.Halt.all_end",
    "Verif.Halt.stop_ends",
    "Verif.Halt.served",
    "Verif.Halt.accept_loop"
   ],
   "note": "For TCP connections. A handshake and a dial may succeed although the context is cancelled; only `rate.Limiter.Wait` is relied upon. Each step of a handler ends in time by C141 and others. QUIC connections, and what the HTTP servers of backends do with the connections that were handed to them (C125), are not in this model."
  },
  {
   "property": "C164",
   "status": "partial",
   "theorems": [
    "Verif.KeyTypes.ssh_partial",
    "Verif.KeyTypes.pki_partial",
    "Verif.KeyTypes.tpm_violated",
    "Verif.KeyTypes.ssh_kept",
    "Verif.KeyTypes.ssh_restarts",
    "Verif.KeyTypes.ssh_failed",
    "Verif.KeyTypes.pki_restarts",
    "Verif.KeyTypes.pki_failed",
    "Verif.KeyTypes.ocsp_answers",
    "Verif.KeyTypes.case_violated",
    "Verif.KeyTypes.default_type",
    "Verif.KeyTypes.tpm_refuses"
   ],
   "note": "Ed25519 is documented but refused when keys are in a TPM. Spellings of ed25519 with capital letters are accepted, but then OCSP never works and each request stores another certificate. The renewal of the authority's own certificate is not in this model; storage does not fail."
  },
  {
   "property": "C165",
   "status": "partial",
   "theorems": [
    "Verif.PlainHttp.secrets_safe",
    "Verif.PlainHttp.data_only",
    "Verif.PlainHttp.challenge_answered",
    "Verif.PlainHttp.others",
    "Verif.PlainHttp.same_host",
    "Verif.PlainHttp.same_host_port",
    "Verif.PlainHttp.answered_gone",
    "Verif.PlainHttp.idle_violated",
    "Verif.PlainHttp.unlimited_violated",
    "Verif.PlainHttp.timeout_helps"
   ],
   "note": "The server has no timeouts and its connections are not counted: silent clients are held for ever, in any number. The handler is that of the autocert package, written down from its source; the time to write an answer is not modelled."
  },
  {
   "property": "C166",
   "status": "partial",
   "theorems": [
    "Verif.Signpost.link_partial",
    "Verif.Signpost.link_violated",
    "Verif.Signpost.target_right",
    "Verif.Signpost.text_beginning",
    "Verif.Signpost.host_shown",
    "Verif.Signpost.unreadable_violated",
    "Verif.Signpost.named_partial",
    "Verif.Signpost.named_saml",
    "Verif.Signpost.unnamed_violated",
    "Verif.Signpost.misnamed_violated",
    "Verif.Signpost.hostname_brackets"
   ],
   "note": "The link loses the port; international names are shown percent-encoded; the name on the button is guessed from the configuration even when a discovery document replaces it. URL.String, URL.Hostname and what browsers do with links are written down from memory; the conversion of names is a parameter."
  },
  {
   "property": "C167",
   "status": "proved",
   "theorems": [
    "Verif.ByteArrays.written",
    "Verif.ByteArrays.array_read",
    "Verif.ByteArrays.one_array",
    "Verif.ByteArrays.to_browser",
    "Verif.ByteArrays.challenge_known",
    "Verif.ByteArrays.to_server",
    "Verif.ByteArrays.stored",
    "Verif.ByteArrays.only_bytes"
   ],
   "note": "The JSON of RFC 8259 is the specification, as far as arrays of whole numbers without spaces are concerned; JSON.stringify, fmt and encoding/json are written down for these. That the store uses JSON is an assumption for the claim about what is stored."
  },
  {
   "property": "C168",
   "status": "proved",
   "theorems": [
    "Verif.Tally.page_counts",
    "Verif.Tally.size_close",
    "Verif.Tally.size_order",
    "Verif.Tally.bytes_counted",
    "Verif.Tally.sections"
   ],
   "note": "Different server names must be different in Unicode. A counter is its total. Floating-point numbers are fractions and the rounding of %.1f is a parameter, to the nearest with ties in any direction; this is right for totals below 2^52. QUIC connections beyond MaxOpen are counted as well, as setCounters comes first there."
  },
  {
   "property": "C169",
   "status": "partial",
   "theorems": [
    "Verif.Enrol.rule",
    "Verif.Enrol.register_partial",
    "Verif.Enrol.order_violated",
    "Verif.Enrol.everybody_violated"
   ],
   "note": "Holds when the endpoint is on a backend that uses the provider and no callback of any provider is on a backend that uses it with another list. Otherwise the list depends on the order of a map, or there is none and everybody may register whom the other identity provider knows."
  },
  {
   "property": "C17",
   "status": "proved",
   "theorems": [
    "Verif.Bridge.relay_prefix",
    "Verif.Bridge.relay_complete",
    "Verif.Bridge.relay_ends_both",
    "Verif.Bridge.deadline_only_half_closed",
    "Verif.Bridge.half_close_independent",
    "Verif.Bridge.reset_ends_both",
    "Verif.Bridge.timeout_ends_both",
    "Verif.Bridge.closed_ends_both"
   ],
   "note": ""
  },
  {
   "property": "C170",
   "status": "partial",
   "theorems": [
    "Verif.Spin.goes_on",
    "Verif.Spin.spin_violated",
    "Verif.Spin.forever_violated",
    "Verif.Spin.http_waits",
    "Verif.Spin.http_goes_on",
    "Verif.Spin.http_doubles"
   ],
   "note": "The loops go on and end as they should, but they do not wait: while calls fail at once, any number of lines is written in no time. The plain HTTP port, which net/http serves, does wait."
  },
  {
   "property": "C171",
   "status": "partial",
   "theorems": [
    "Verif.Pem.ca_file",
    "Verif.Pem.crl_file",
    "Verif.Pem.read_once",
    "Verif.Pem.der_partial",
    "Verif.Pem.der_violated"
   ],
   "note": "The PEM files are right. The file in DER form is a single certificate only as long as there are no delegates, that is until the revocation list or OCSP is first asked for."
  },
  {
   "property": "C172",
   "status": "proved",
   "theorems": [
    "Verif.Pem.block_read",
    "Verif.Pem.file_read",
    "Verif.Pem.roundtrip",
    "Verif.Pem.root_read",
    "Verif.Pem.root_missing"
   ],
   "note": "pem.Encode and pem.Decode are library code, written down from memory."
  },
  {
   "property": "C173",
   "status": "partial",
   "theorems": [
    "Verif.Possession.possession",
    "Verif.Possession.own_request",
    "Verif.Possession.other_violated"
   ],
   "note": "Certificates are for keys whose holders have signed a request, but a request does not say for whom it was made: someone else who has seen it gets a certificate with their own address for the same key."
  },
  {
   "property": "C18",
   "status": "proved",
   "theorems": [
    "Verif.Dial.header_first"
   ],
   "note": "The byte format of the header is the go-proxyproto library's and is a parameter."
  },
  {
   "property": "C19",
   "status": "partial",
   "theorems": [
    "Verif.Reconf.failed_reconf_partial",
    "Verif.Reconf.failed_reconf_limits_partial",
    "Verif.Reconf.failed_reconf_violated",
    "Verif.Reconf.failed_reconf_not_undone_violated",
    "Verif.Reconf.failed_reconf_unlimited"
   ],
   "note": "Routing and policies are untouched by a failed reconfiguration; bandwidth limits are changed before the last fallible steps and are not restored."
  },
  {
   "property": "C20",
   "status": "partial",
   "theorems": [
    "Verif.Reconf.limits_by_name_partial",
    "Verif.Reconf.limits_upper_violated",
    "Verif.Reconf.limits_overwrite_violated"
   ],
   "note": "Proved for lower-case group names over every history. Upper-case names give no limit; names differing in case overwrite each other."
  },
  {
   "property": "C21",
   "status": "partial",
   "theorems": [
    "Verif.Reconf.reauth_exact_partial",
    "Verif.Reconf.reauth_keeps_permitted",
    "Verif.Reconf.reauth_crash_iff",
    "Verif.Reconf.reauth_removed_name_violated",
    "Verif.Reconf.reauth_early_phase_violated",
    "Verif.Reconf.reauth_acl_added_violated",
    "Verif.Reconf.reauth_cert_demanded_violated"
   ],
   "note": "The process ends when a name with open connections is removed, in a race, or when an ACL is added with certificate-less clients connected; otherwise exact. A nil ACL keeps certificate-less clients."
  },
  {
   "property": "C22",
   "status": "proved",
   "theorems": [
    "Verif.Path.pathClean_canonical",
    "Verif.Path.pathClean_good"
   ],
   "note": ""
  },
  {
   "property": "C23",
   "status": "proved",
   "theorems": [
    "Verif.Http.static_confined",
    "Verif.Http.static_serve_confined",
    "Verif.Http.static_unclean_redirected"
   ],
   "note": "Absolute document roots. Symbolic links are resolved by the operating system and are outside the model."
  },
  {
   "property": "C24",
   "status": "proved",
   "theorems": [
    "Verif.Http.sso_enforced",
    "Verif.Http.sso_admits"
   ],
   "note": "For identities whose email has no '@' the ACL entry \"@\" counts as a match, see C26."
  },
  {
   "property": "C25",
   "status": "proved",
   "theorems": [
    "Verif.Http.no_path_bypass",
    "Verif.Http.sso_enforced"
   ],
   "note": ""
  },
  {
   "property": "C26",
   "status": "partial",
   "theorems": [
    "Verif.Http.acl_exact",
    "Verif.Http.acl_empty",
    "Verif.Http.sso_admits",
    "Verif.Http.acl_at_sign_violated"
   ],
   "note": "Exact for emails with '@'. An ACL entry \"@\" admits every email without '@'."
  },
  {
   "property": "C27",
   "status": "partial",
   "theorems": [
    "Verif.Dispatch.sso_every_config_violated",
    "Verif.Dispatch.sso_http_modes_partial"
   ],
   "note": "Configurations with SSO on modes without an HTTP handler are accepted and not enforced."
  },
  {
   "property": "C28",
   "status": "proved",
   "theorems": [
    "Verif.Http.force_reauth"
   ],
   "note": ""
  },
  {
   "property": "C29",
   "status": "proved",
   "theorems": [
    "Verif.Http.user_id_unforgeable"
   ],
   "note": ""
  },
  {
   "property": "C30",
   "status": "partial",
   "theorems": [
    "Verif.Http.user_id_delivered_partial",
    "Verif.Http.user_id_delivered_violated"
   ],
   "note": "A client header `Connection: X-tlsproxy-user-id` makes httputil.ReverseProxy drop the header."
  },
  {
   "property": "C31",
   "status": "proved",
   "theorems": [
    "Verif.Http.forwarded_unforgeable"
   ],
   "note": ""
  },
  {
   "property": "C32",
   "status": "partial",
   "theorems": [
    "Verif.Xfcc.header_roundtrip",
    "Verif.Xfcc.header_unambiguous",
    "Verif.Xfcc.subject_injective_partial",
    "Verif.Xfcc.subject_slash_violated"
   ],
   "note": "Fields can always be told apart and read back; the subject is ambiguous when it contains '/'."
  },
  {
   "property": "C33",
   "status": "proved",
   "theorems": [
    "Verif.Http.misdirected_not_forwarded",
    "Verif.Http.misdirected_only"
   ],
   "note": ""
  },
  {
   "property": "C34",
   "status": "partial",
   "theorems": [
    "Verif.Http.no_loop_partial",
    "Verif.Http.loop_cut",
    "Verif.Http.loop_violated"
   ],
   "note": "A client header `Connection: Via` removes the hop just added."
  },
  {
   "property": "C35",
   "status": "partial",
   "theorems": [
    "Verif.Http.cookies_removed_partial",
    "Verif.Http.cookies_removed_violated"
   ],
   "note": "Cookies are only filtered on paths under the SSO policy."
  },
  {
   "property": "C36",
   "status": "proved",
   "theorems": [
    "Verif.Http.pool_not_shared"
   ],
   "note": "SHA-256 is taken to be injective; the bytes of the PROXY header are the library's."
  },
  {
   "property": "C37",
   "status": "partial",
   "theorems": [
    "Verif.Dial.dial_destination",
    "Verif.Http.override_forward",
    "Verif.Http.override_static_partial",
    "Verif.Http.override_no_addresses_violated"
   ],
   "note": "A backend without addresses ignores the addresses of its overrides."
  },
  {
   "property": "C38",
   "status": "proved",
   "theorems": [
    "Verif.Http.endpoint_most_specific",
    "Verif.Http.endpoint_not_forwarded"
   ],
   "note": ""
  },
  {
   "property": "C39",
   "status": "proved",
   "theorems": [
    "Verif.Http.hsts"
   ],
   "note": ""
  },
  {
   "property": "C40",
   "status": "partial",
   "theorems": [
    "Verif.Token.identity_partial",
    "Verif.Token.login_cookie_partial",
    "Verif.Token.login_cookie_rewrite_violated",
    "Verif.Token.token_times"
   ],
   "note": "All histories of token issuance by all four issuers, arbitrary presented token, ideal signatures. Missing: rewrite rules of a local OIDC server that output the claim proxyauth make its tokens login cookies (violated theorem)."
  },
  {
   "property": "C41",
   "status": "partial",
   "theorems": [
    "Verif.Token.identity_partial",
    "Verif.Token.bearer_partial",
    "Verif.Token.bearer_provider_violated"
   ],
   "note": "Missing: the provider name is not compared, so an ID token of another provider with the same callback host is accepted (violated theorem); rewrite rules on iss/proxyauth and OIDC servers with the same issuer name are excluded by hypothesis."
  },
  {
   "property": "C42",
   "status": "partial",
   "theorems": [
    "Verif.Token.id_cookie_partial",
    "Verif.Token.id_cookie_refreshed",
    "Verif.Token.new_id_token_accepted",
    "Verif.Token.id_cookie_violated",
    "Verif.Http.id_token_current",
    "Verif.Token.id_token_made"
   ],
   "note": "Missing: on the issuer's own host the login token itself passes as ID token (violated theorem)."
  },
  {
   "property": "C43",
   "status": "partial",
   "theorems": [
    "Verif.Token.url_token_roundtrip",
    "Verif.Token.url_token_partial",
    "Verif.Token.url_token_saml_violated"
   ],
   "note": "Missing: a login or ID token that carries a claim named url (SAML attribute) passes as URL token (violated theorem)."
  },
  {
   "property": "C44",
   "status": "partial",
   "theorems": [
    "Verif.Keys.signing_key_available_partial",
    "Verif.Keys.signing_key_available_violated"
   ],
   "note": "All sequences of starts and rotations at any times with storage failures. Missing: stored keys that cannot be loaded are all dropped and the start succeeds without any key (violated theorem)."
  },
  {
   "property": "C45",
   "status": "partial",
   "theorems": [
    "Verif.Keys.token_verifiable_partial",
    "Verif.Keys.token_verifiable_violated"
   ],
   "note": "For histories whose consecutive successful rotations are at most G apart with G + 3H at most 122 hours. Missing: after a longer downtime tokens can become unverifiable after two hours (violated theorem)."
  },
  {
   "property": "C46",
   "status": "proved",
   "theorems": [
    "Verif.Keys.signs_with_published_key",
    "Verif.Keys.select_spec",
    "Verif.Keys.signing_algorithm"
   ],
   "note": ""
  },
  {
   "property": "C47",
   "status": "proved",
   "theorems": [
    "Verif.Token.reserved_claims"
   ],
   "note": ""
  },
  {
   "property": "C48",
   "status": "partial",
   "theorems": [
    "Verif.Counter.counter_value_exact",
    "Verif.Counter.counter_rate_violated",
    "Verif.Counter.counter_rate_partial",
    "Verif.Counter.counter_window",
    "Verif.Counter.counter_made_iff"
   ],
   "note": "Proved for periods up to the one the counter was created for. Violated for longer ones (rate 0)."
  },
  {
   "property": "C49",
   "status": "proved",
   "theorems": [
    "Verif.Netw.counters_exact"
   ],
   "note": ""
  },
  {
   "property": "C50",
   "status": "proved",
   "theorems": [
    "Verif.Console.console_hides_secrets",
    "Verif.Console.console_text",
    "Verif.Console.console_preserves_config"
   ],
   "note": "Stated as non-interference for an arbitrary encoder, with a heap for the pointers."
  },
  {
   "property": "C51",
   "status": "proved",
   "theorems": [
    "Verif.Ocsp.verify_accepts",
    "Verif.Ocsp.Spec.Vouched.mem",
    "Verif.Ocsp.fetch_first",
    "Verif.Ocsp.no_servers_accepted"
   ],
   "note": "Whose answers are believed is C146."
  },
  {
   "property": "C52",
   "status": "proved",
   "theorems": [
    "Verif.Ocsp.revoked_not_whitewashed",
    "Verif.Ocsp.revoked_leaf_refused"
   ],
   "note": "While the cached response is neither expired nor evicted."
  },
  {
   "property": "C53",
   "status": "partial",
   "theorems": [
    "Verif.Ocsp.relied_weak_partial",
    "Verif.Ocsp.relied_partial",
    "Verif.Ocsp.relied_violated",
    "Verif.Ocsp.staple_ignored",
    "Verif.Ocsp.staple_used",
    "Verif.Ocsp.staple_short"
   ],
   "note": "Missing: a fetched response is used whatever its serial number and NextUpdate (violated theorem); holds for cached and stapled ones and for servers that answer what they were asked."
  },
  {
   "property": "C54",
   "status": "partial",
   "theorems": [
    "Verif.Oidc.Client.login_sound",
    "Verif.Oidc.Client.login_partial",
    "Verif.Oidc.Client.login_nonce_violated"
   ],
   "note": "All interleavings of critical sections of login requests and callbacks, arbitrary provider answers. Missing: the nonce of the ID token is not compared with the state, so a provider that answers with another pending nonce redirects to the other request's URL (violated theorem)."
  },
  {
   "property": "C55",
   "status": "proved",
   "theorems": [
    "Verif.Oidc.Client.login_identity",
    "Verif.Oidc.Client.logins_acceptable",
    "Verif.Oidc.Client.identityOk_spec",
    "Verif.Oidc.Client.login_granted"
   ],
   "note": ""
  },
  {
   "property": "C56",
   "status": "proved",
   "theorems": [
    "Verif.Oidc.Server.code_exchange",
    "Verif.Oidc.Server.exchange_request"
   ],
   "note": "Codes are assumed never to repeat and clocks not to go backwards between a vacuum and a later authorization."
  },
  {
   "property": "C57",
   "status": "proved",
   "theorems": [
    "Verif.Oidc.Server.redirect_registered",
    "Verif.Oidc.Server.codes_to_registered"
   ],
   "note": ""
  },
  {
   "property": "C58",
   "status": "partial",
   "theorems": [
    "Verif.Oidc.Server.exchange_uri_partial",
    "Verif.Oidc.Server.exchange_uri_violated"
   ],
   "note": "The code only requires the redirect URI to be one registered for the client; equality with the authorization's URI is refuted."
  },
  {
   "property": "C59",
   "status": "proved",
   "theorems": [
    "Verif.Oidc.Server.userinfo_once"
   ],
   "note": "Access tokens are assumed not to be guessed."
  },
  {
   "property": "C60",
   "status": "partial",
   "theorems": [
    "Verif.Saml.saml_login_partial",
    "Verif.Saml.saml_window_violated",
    "Verif.Saml.accept_spec",
    "Verif.Saml.saml_login_posted"
   ],
   "note": "Missing: an assertion is still accepted at the instant NotOnOrAfter (violated theorem)."
  },
  {
   "property": "C61",
   "status": "proved",
   "theorems": [
    "Verif.Passkey.challenge_fresh",
    "Verif.Passkey.challenge_single_use"
   ],
   "note": ""
  },
  {
   "property": "C62",
   "status": "proved",
   "theorems": [
    "Verif.Passkey.key_added_only",
    "Verif.Passkey.second_key_only_managed",
    "Verif.Ceremony.register_iff"
   ],
   "note": ""
  },
  {
   "property": "C63",
   "status": "proved",
   "theorems": [
    "Verif.Passkey.login_identity",
    "Verif.Passkey.cookie_named",
    "Verif.Passkey.login_iff",
    "Verif.Passkey.open_failure"
   ],
   "note": "Keys are attached to the email: the subject of the result is that of one registration for that email, which need not be the registration of this key."
  },
  {
   "property": "C64",
   "status": "partial",
   "theorems": [
    "Verif.Passkey.login_relying_party_partial",
    "Verif.Passkey.login_origin_violated"
   ],
   "note": "Missing: processAssertion does not check the origin nor what the challenge was issued for (violated theorem); the relying party hash is checked."
  },
  {
   "property": "C65",
   "status": "partial",
   "theorems": [
    "Verif.Authdata.parse_no_panic",
    "Verif.Authdata.parse_encode",
    "Verif.Authdata.parse_exact",
    "Verif.Authdata.truncated_refused_partial",
    "Verif.Authdata.truncated_extension_violated"
   ],
   "note": "Missing: extensions are not parsed, so missing or damaged extensions are accepted (violated theorem)."
  },
  {
   "property": "C66",
   "status": "proved",
   "theorems": [
    "Verif.Passkey.key_removed_only"
   ],
   "note": ""
  },
  {
   "property": "C67",
   "status": "partial",
   "theorems": [
    "Verif.Pki.serial_text_injective_partial",
    "Verif.Pki.serial_text_violated",
    "Verif.Pki.revoke_affects_one"
   ],
   "note": "Proved for serial numbers that are not negative (all the CA issues). Negative numbers from clients share the text of their absolute value: violated with a witness."
  },
  {
   "property": "C68",
   "status": "proved",
   "theorems": [
    "Verif.Pki.revocation_permanent",
    "Verif.Pki.check_revoked_only"
   ],
   "note": "All histories of signing, revoking, querying, failed storage operations, reloads and restarts."
  },
  {
   "property": "C69",
   "status": "partial",
   "theorems": [
    "Verif.Pki.crl_complete_partial",
    "Verif.Pki.crl_sound",
    "Verif.Pki.crl_numbers",
    "Verif.Pki.crl_current_violated",
    "Verif.Pki.crl_complete_violated",
    "Verif.Pki.crl_no_reason"
   ],
   "note": "Numbers are fully proved. Currency holds with 30 minutes of slack and completeness except for revocations in the second the list was made; both exceptions are real and have witnesses."
  },
  {
   "property": "C70",
   "status": "proved",
   "theorems": [
    "Verif.Pki.issued_identity",
    "Verif.Pki.issued_cn_owner",
    "Verif.Pki.issued_dns_verbatim",
    "Verif.Pki.issued_usage",
    "Verif.Pki.request_granted",
    "Verif.Pki.open_failure",
    "Verif.Pki.sign_failure"
   ],
   "note": "issued_dns_verbatim records that DNS names, which the property does not mention, are copied."
  },
  {
   "property": "C71",
   "status": "partial",
   "theorems": [
    "Verif.Pki.revoke_authorized_partial",
    "Verif.Pki.revoke_twice_violated"
   ],
   "note": "Authorization, existence and expiry proved as of the tests of the request; two racing requests can revoke twice (witness)."
  },
  {
   "property": "C72",
   "status": "partial",
   "theorems": [
    "Verif.Pki.ocsp_good_partial",
    "Verif.Pki.ocsp_other_issuer",
    "Verif.Pki.ocsp_negative_violated"
   ],
   "note": "Proved for serial numbers that are not negative; a negative one is answered as its absolute value (witness)."
  },
  {
   "property": "C73",
   "status": "proved",
   "theorems": [
    "Verif.Sshca.ssh_cert",
    "Verif.Sshca.ssh_cert_body",
    "Verif.Sshca.ssh_cert_iff",
    "Verif.Sshca.ssh_status"
   ],
   "note": "Times between 1970 and the year 285 billion."
  },
  {
   "property": "C74",
   "status": "partial",
   "theorems": [
    "Verif.Revoke.revoke_unused_partial",
    "Verif.Revoke.revoke_unused_static",
    "Verif.Revoke.revoke_disabled",
    "Verif.Revoke.revoke_deleted_partial",
    "Verif.Revoke.account_key_kept",
    "Verif.Revoke.revoke_reconfigured_violated",
    "Verif.Revoke.revoke_kept_violated",
    "Verif.Revoke.revoke_complete",
    "Verif.Revoke.revoke_failure"
   ],
   "note": "Fully proved without reconfiguration in between and when the clean-up succeeds. A concurrent reconfiguration can make it revoke a certificate in use, and a failure midway keeps revoked certificates in the cache (witnesses)."
  },
  {
   "property": "C75",
   "status": "proved",
   "theorems": [
    "Verif.Logging.backend_logs",
    "Verif.Logging.proxy_logs",
    "Verif.Logging.first_set"
   ],
   "note": ""
  },
  {
   "property": "C76",
   "status": "partial",
   "theorems": [
    "Verif.Config.proxy_version_violated",
    "Verif.Config.proxy_version_partial"
   ],
   "note": "The validator accepts v0, v-1, v+2, v127; v1 and v2 behave as documented."
  },
  {
   "property": "C77",
   "status": "partial",
   "theorems": [
    "Verif.Config.provider_domain_violated",
    "Verif.Config.provider_domain_partial"
   ],
   "note": "The domain comparison is a bare string suffix."
  },
  {
   "property": "C78",
   "status": "proved",
   "theorems": [
    "Verif.Config.accepted_consistent"
   ],
   "note": ""
  },
  {
   "property": "C79",
   "status": "partial",
   "theorems": [
    "Verif.QuicConn.streams_marked",
    "Verif.QuicConn.streams_exact_partial",
    "Verif.QuicConn.recv_only_violated",
    "Verif.QuicConn.timeout_violated"
   ],
   "note": "Exact for bidirectional streams without deadlines. A finished one-way stream stays listed and a deadline counts as the end of a side (witnesses)."
  },
  {
   "property": "C80",
   "status": "proved",
   "theorems": [
    "Verif.QuicConn.callback_at_most",
    "Verif.QuicConn.callback_exactly_once",
    "Verif.QuicConn.quiet_done",
    "Verif.QuicConn.work_decreases",
    "Verif.QuicConn.callback_replaced_violated",
    "Verif.QuicConn.callback_not_early"
   ],
   "note": "For the last callback registered (the proxy registers one); callback_replaced_violated records that a second registration drops an earlier one."
  },
  {
   "property": "C81",
   "status": "partial",
   "theorems": [
    "Verif.WebSocket.ws_prefix",
    "Verif.WebSocket.ws_complete_partial",
    "Verif.WebSocket.ws_progress",
    "Verif.WebSocket.ws_halfclose_violated",
    "Verif.WebSocket.ws_returns",
    "Verif.WebSocket.ws_closed",
    "Verif.WebSocket.ws_failure"
   ],
   "note": "Prefix at all times, everything if no read or write fails. The end of one direction ends the other and its data is lost (witness)."
  },
  {
   "property": "C82",
   "status": "partial",
   "theorems": [
    "Verif.Config.passkey_check_violated",
    "Verif.Config.passkey_delegation"
   ],
   "note": "Validation alone accepts self-reference; the running configuration is proved sound."
  },
  {
   "property": "C83",
   "status": "partial",
   "theorems": [
    "Verif.Config.sni_case_violated",
    "Verif.Config.sni_case_partial"
   ],
   "note": "Lookup is case-sensitive; proved for names equal after case folding on the configuration side."
  },
  {
   "property": "C84",
   "status": "proved",
   "theorems": [
    "Verif.Hello.alerts_wellformed"
   ],
   "note": ""
  },
  {
   "property": "C85",
   "status": "partial",
   "theorems": [
    "Verif.Dispatch.quic_admission_violated",
    "Verif.Dispatch.quic_admission_partial",
    "Verif.Dispatch.quic_service"
   ],
   "note": "Violated when a raw TCP/TLS backend declares h3; proved otherwise."
  },
  {
   "property": "C86",
   "status": "partial",
   "theorems": [
    "Verif.Lifecycle.http3_closed_violated",
    "Verif.Lifecycle.http3_closed_partial"
   ],
   "note": "The path through incInFlight forgets the HTTP/3 server."
  },
  {
   "property": "C87",
   "status": "partial",
   "theorems": [
    "Verif.Ocsp.staple_partial",
    "Verif.Ocsp.nil_only_without_servers",
    "Verif.Ocsp.staple_violated"
   ],
   "note": "Missing: a certificate without OCSP servers makes the handshake and the next cache flush dereference nil (violated theorem)."
  },
  {
   "property": "C88",
   "status": "proved",
   "theorems": [
    "Verif.Ocsp.cache_survives_restart",
    "Verif.Ocsp.flush_mem"
   ],
   "note": ""
  },
  {
   "property": "C89",
   "status": "partial",
   "theorems": [
    "Verif.Saml.saml_browser_partial",
    "Verif.Saml.saml_browser_violated"
   ],
   "note": "No cookie ties the SAML answer to the browser (violated theorem); holds when browsers deliver only answers to their own requests."
  },
  {
   "property": "C90",
   "status": "partial",
   "theorems": [
    "Verif.Saml.readCerts_partial",
    "Verif.Saml.readCerts_violated",
    "Verif.Saml.readCerts_spec"
   ],
   "note": "Missing: text after the last PEM block is a nil dereference (violated theorem)."
  },
  {
   "property": "C91",
   "status": "partial",
   "theorems": [
    "Verif.Passkey.login_refreshed_partial",
    "Verif.Passkey.registration_refreshed_violated",
    "Verif.Passkey.login_iff"
   ],
   "note": "Missing: the cookie issued right after a first registration is not subject to the interval (violated theorem)."
  },
  {
   "property": "C92",
   "status": "proved",
   "theorems": [
    "Verif.Config.check_iff"
   ],
   "note": "Both directions. URL, IDNA and CIDR parsing are parameters; deprecated fields and file reads are listed in DESIGN.md."
  },
  {
   "property": "C93",
   "status": "proved",
   "theorems": [
    "Verif.Config.normal_form",
    "Verif.Config.normal_form_top",
    "Verif.Config.check_idempotent"
   ],
   "note": "IDNA conversion and upper-casing are assumed idempotent in check_idempotent."
  },
  {
   "property": "C94",
   "status": "proved",
   "theorems": [
    "Verif.Token.login_token_exact",
    "Verif.Token.id_token_exact",
    "Verif.Token.oidc_token_exact"
   ],
   "note": "For claims not written by a rewrite rule. With the email scope, a user without an email claim gets a null one."
  },
  {
   "property": "C95",
   "status": "proved",
   "theorems": [
    "Verif.Reconf.reconf_accepted_iff",
    "Verif.Reconf.reconf_applied",
    "Verif.Reconf.reconf_same",
    "Verif.Reconf.retired_history"
   ],
   "note": "Routing is stated for non-empty protocol names (C04). What a refused configuration leaves behind is C19, limits are C20."
  },
  {
   "property": "C96",
   "status": "partial",
   "theorems": [
    "Verif.Endpoints.table_exact",
    "Verif.Endpoints.served_configured",
    "Verif.Endpoints.endpoint_answers_partial",
    "Verif.Endpoints.endpoint_answers_violated"
   ],
   "note": "The table of handlers is characterised exactly. A request reaches its endpoint when the URL has a path and no other endpoint claims it; an endpoint URL without a path is registered under an empty path and never answers (witness)."
  },
  {
   "property": "C97",
   "status": "partial",
   "theorems": [
    "Verif.Endpoints.passkey_acl_partial",
    "Verif.Endpoints.passkey_acl_violated"
   ],
   "note": "Holds when the backend that hosts the endpoint is the only one and uses the passkey provider itself; otherwise the list of another backend or none is applied (witness)."
  },
  {
   "property": "C98",
   "status": "partial",
   "theorems": [
    "Verif.Login.login_return_partial",
    "Verif.Login.login_nonce",
    "Verif.Login.login_browser_partial",
    "Verif.Login.login_completes",
    "Verif.Login.login_browser_violated",
    "Verif.Login.forget_ends"
   ],
   "note": "Page, single use, five minutes and completion proved for all histories. The nonce is not tied to the browser (witness); holds when browsers follow only links made for them."
  },
  {
   "property": "C99",
   "status": "partial",
   "theorems": [
    "Verif.Login.login_host_partial",
    "Verif.Login.login_host_violated"
   ],
   "note": "The Host header is signed into the URL unchecked (witness); holds when requests name served hosts."
  }
 ]
}
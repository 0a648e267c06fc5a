import Verif.Model.Layers

/-!
# C153: What is said about connections is true

Statements: however connections are wrapped, the notes about a connection are found, and looking for them never ends a
handler; the log gives the address of the client, the name, protocol, mode and certificate of its connection, and the
connection to the server that it is bridged to; the page with metrics gives the server of each stream.
-/

namespace Verif.Layers

namespace Spec

/-- The socket of a client: a TCP connection, maybe behind a load balancer that sends a PROXY header. -/
inductive Socket : Conn → Prop
  | direct (l r) : Socket (.tcp l r)
  | balanced (l r h) : Socket (.proxy (.tcp l r) h)

/-- The connections that handlers find in their context, with where their notes are. -/
inductive InContext : Conn → Nat → Prop
  /-- TCP, passed through (proxy.go:1374) -/
  | passed (i c) : Socket c → InContext (.netw i c) i
  /-- TLS (proxy.go:1336, http.go:51) -/
  | tls (i c) : Socket c → InContext (.tls (.netw i c)) i
  /-- a stream of a QUIC connection that is served like a connection (http.go:51) -/
  | stream (i l r) : InContext (.netw i (.stream l r)) i
  /-- a QUIC connection (quic.go:125, 602) -/
  | quic (i l r) : InContext (.quic i l r) i

/-- Where a client is: what the load balancer says, or the other end of the socket. -/
inductive Client : Conn → Addr → Prop
  | direct (l r) : Client (.tcp l r) r
  | header (raw s d) : Client (.proxy raw (some (s, d))) s
  | silent (l r) : Client (.proxy (.tcp l r) none) r
  | stream (l r) : Client (.stream l r) r
  | quic (i l r) : Client (.quic i l r) r
  | netw (i c a) : Client c a → Client (.netw i c) a
  | tls (c a) : Client c a → Client (.tls c) a

/-- The address that a client connected to, if it is behind a load balancer. -/
inductive Via : Conn → Addr → Prop
  | header (raw s d) : Via (.proxy raw (some (s, d))) d
  | silent (l r) : Via (.proxy (.tcp l r) none) l
  | netw (i c a) : Via c a → Via (.netw i c) a
  | tls (c a) : Via c a → Via (.tls c) a

/-- All events concern connections that handlers have. -/
def Legal (es : List Ev) : Prop :=
  ∀ e ∈ es, match e with
    | .dialed ctx .. => ∃ i, InContext ctx i
    | .upgraded ctx _ => ∃ i, InContext ctx i
    | _ => True

/-- The event changes what is noted about the connection `i`. -/
def Touches (i : Nat) : Ev → Prop
  | .admitted j .. => j = i
  | .wrapped _ j => j = i
  | .dialed ctx _ j .. => j = i ∨ InContext ctx i
  | .upgraded ctx _ => InContext ctx i

/-- Where the notes about a connection are: with the TCP connection below TLS, with the stream, or with the QUIC
connection. -/
def home : Conn → Option Nat
  | .netw i _ => some i
  | .tls (.netw i _) => some i
  | .quic i _ _ => some i
  | _ => none

/-- The connections to servers that were made with the notes of `i` at hand, last one first. -/
def dials (i : Nat) : List Ev → List (Addr × Addr)
  | [] => []
  | .dialed ctx _ _ l r _ _ :: es => dials i es ++ (if home ctx = some i then [(l, r)] else [])
  | _ :: es => dials i es

end Spec

/-! ## Layers -/

theorem annotated_context {c : Conn} {i : Nat} (h : Spec.InContext c i) : annotated c = some i := by
  cases h <;> rfl

theorem home_context {c : Conn} {i : Nat} (h : Spec.InContext c i) : Spec.home c = some i := by
  cases h <;> rfl

theorem context_unique {c : Conn} {i j : Nat} (h : Spec.InContext c i) (h' : annotated c = some j) : i = j := by
  rw [annotated_context h] at h'
  exact Option.some.inj h'

/-- C153. No event makes a handler panic. -/
theorem no_panic (w : World) (es : List Ev) (h : Spec.Legal es) : (run w es).isSome := by
  induction es generalizing w with
  | nil => rfl
  | cons e es ih =>
    have ih' := fun w => ih w fun e he => h e (List.mem_cons_of_mem _ he)
    have he := h e List.mem_cons_self
    cases e with
    | admitted i sn p cert m => exact ih' _
    | wrapped p i => exact ih' _
    | dialed ctx u i l r m p =>
      obtain ⟨j, hj⟩ := he
      simp only [run, step, annotated_context hj]
      exact ih' _
    | upgraded ctx u =>
      obtain ⟨j, hj⟩ := he
      simp only [run, step, annotated_context hj]
      exact ih' _

theorem remote_client {c : Conn} {a : Addr} (h : Spec.Client c a) : remote c = a := by
  induction h with
  | direct | header | silent | stream | quic => rfl
  | netw i c a _ ih => exact ih
  | tls c a _ ih => exact ih

theorem via_iff {c : Conn} {i : Nat} (h : Spec.InContext c i) (a : Addr) :
    (if isProxy c then some (localAddr c) else none) = some a ↔ Spec.Via c a := by
  have sock : ∀ c, Spec.Socket c → ((if isProxy c then some (localAddr c) else none) = some a ↔ Spec.Via c a) := by
    intro c hc
    cases hc with
    | direct l r => exact ⟨fun h => (nomatch h), fun h => (nomatch h)⟩
    | balanced l r hd =>
      cases hd with
      | none =>
        constructor
        · intro h
          obtain rfl : l = a := Option.some.inj h
          exact .silent _ _
        · intro h
          cases h
          rfl
      | some sd =>
        obtain ⟨s, d⟩ := sd
        constructor
        · intro h
          obtain rfl : d = a := Option.some.inj h
          exact .header _ _ _
        · intro h
          cases h
          rfl
  cases h with
  | passed i c hc => exact (sock c hc).trans ⟨.netw _ _ _, fun h => by cases h; assumption⟩
  | tls i c hc =>
    refine (sock c hc).trans ⟨fun h => .tls _ _ (.netw _ _ _ h), fun h => ?_⟩
    cases h with
    | tls _ _ h => cases h; assumption
  | stream i l r =>
    refine ⟨fun h => (nomatch h), fun h => ?_⟩
    cases h with
    | netw _ _ _ h => cases h
  | quic i l r => exact ⟨fun h => (nomatch h), fun h => (nomatch h)⟩

/-- C153. The addresses in a description are those of the client, whether it is behind a load balancer or not. -/
theorem addresses (w : World) {c : Conn} {i : Nat} (h : Spec.InContext c i) :
    ∃ d, describe w c = some d ∧ Spec.Client c d.remote ∧ ∀ a, d.via = some a ↔ Spec.Via c a := by
  unfold describe
  rw [annotated_context h]
  refine ⟨_, rfl, ?_, via_iff h⟩
  have sock : ∀ c, Spec.Socket c → Spec.Client c (remote c) := by
    intro c hc
    cases hc with
    | direct l r => exact .direct _ _
    | balanced l r hd =>
      cases hd with
      | none => exact .silent _ _
      | some sd => exact .header _ _ _
  cases h with
  | passed i c hc => exact .netw _ _ _ (sock c hc)
  | tls i c hc => exact .tls _ _ (.netw _ _ _ (sock c hc))
  | stream i l r => exact .netw _ _ _ (.stream _ _)
  | quic i l r => exact .quic _ _ _

/-- C153. What identifies a connection of a client is its socket, whatever the load balancer says. -/
theorem tracked (l r : Addr) (i : Nat) (h : Option (Addr × Addr)) :
    localNet (.netw i (.proxy (.tcp l r) h)) = .tcp l r ∧ localNet (.tls (.netw i (.proxy (.tcp l r) h))) = .tcp l r ∧
    localNet (.netw i (.tcp l r)) = .tcp l r ∧ localNet (.tls (.netw i (.tcp l r))) = .tcp l r := ⟨rfl, rfl, rfl, rfl⟩

/-- C153. The time after which a dead client is noticed is set for the sockets of clients that connect directly, and
never for those behind a load balancer, which keep that of the system. -/
theorem keepalive_iff {c : Conn} (h : Spec.Socket c) (i : Nat) :
    (keepAlive (.netw i c)).isSome ↔ ∃ l r, c = .tcp l r := by
  cases h with
  | direct l r => exact ⟨fun _ => ⟨l, r, rfl⟩, fun _ => rfl⟩
  | balanced l r hd => exact ⟨fun h => (nomatch h), fun ⟨_, _, h⟩ => (nomatch h)⟩

/-! ## Notes -/

theorem run_append (w : World) (a b : List Ev) : run w (a ++ b) = (run w a).bind (run · b) := by
  induction a generalizing w with
  | nil => rfl
  | cons e a ih =>
    rw [List.cons_append, run, run]
    cases step w e with
    | none => rfl
    | some w => exact ih w

theorem annotated_legal {c : Conn} {i j : Nat} (h : Spec.InContext c j) (h' : annotated c = some i) : Spec.InContext c i := by
  rw [← context_unique h h']
  exact h

/-- What an event does not touch stays as it was. -/
theorem step_other {w w' : World} {e : Ev} {i : Nat} (hl : Spec.Legal [e]) (h : ¬ Spec.Touches i e) (hs : step w e = some w') :
    w' i = w i := by
  have hl := hl e List.mem_cons_self
  cases e with
  | admitted j sn p cert m =>
    cases hs
    exact if_neg fun h' => h h'.symm
  | wrapped p j =>
    cases hs
    exact if_neg fun h' => h h'.symm
  | dialed ctx u j l r m p =>
    obtain ⟨k, hk⟩ := hl
    simp only [step, annotated_context hk] at hs
    cases hs
    have h1 : i ≠ k := fun e => h (.inr (e ▸ hk))
    have h2 : i ≠ j := fun e => h (.inl e.symm)
    simp [put, h1, h2]
  | upgraded ctx u =>
    obtain ⟨k, hk⟩ := hl
    simp only [step, annotated_context hk] at hs
    cases hs
    have h1 : i ≠ k := fun e => h (show Spec.InContext ctx i from e ▸ hk)
    simp [put, h1]

theorem run_other {w w' : World} {es : List Ev} {i : Nat} (hl : Spec.Legal es) (h : ∀ e ∈ es, ¬ Spec.Touches i e)
    (hr : run w es = some w') : w' i = w i := by
  induction es generalizing w with
  | nil => cases hr; rfl
  | cons e es ih =>
    rw [run] at hr
    cases hs : step w e with
    | none => rw [hs] at hr; cases hr
    | some w1 =>
      rw [hs] at hr
      rw [ih (fun e he => hl e (List.mem_cons_of_mem _ he)) (fun e he => h e (List.mem_cons_of_mem _ he)) hr]
      exact step_other (fun e' he => by obtain rfl := List.mem_singleton.1 he; exact hl _ List.mem_cons_self)
        (h e List.mem_cons_self) hs

theorem legal_split {a b : List Ev} (h : Spec.Legal (a ++ b)) : Spec.Legal a ∧ Spec.Legal b :=
  ⟨fun e he => h e (List.mem_append_left _ he), fun e he => h e (List.mem_append_right _ he)⟩

/-- A run is split where something happens. -/
theorem run_split {w w' : World} {a b : List Ev} {e : Ev} (h : run w (a ++ e :: b) = some w') :
    ∃ w1 w2, run w a = some w1 ∧ step w1 e = some w2 ∧ run w2 b = some w' := by
  rw [run_append] at h
  cases ha : run w a with
  | none => rw [ha] at h; cases h
  | some w1 =>
    rw [ha] at h
    simp only [Option.bind_some, run] at h
    cases hs : step w1 e with
    | none => rw [hs] at h; cases h
    | some w2 => exact ⟨w1, w2, rfl, hs, by rw [hs] at h; exact h⟩

/-- C153. Whatever happens to other connections, a description of a connection that was admitted and then bridged to a
server shows the name, the mode, the protocol and the certificate that it was admitted with, and both ends of the
connection to the server. -/
theorem bridged_line (w w' : World) (c : Conn) (i : Nat) (hc : Spec.InContext c i) (pre mid post : List Ev)
    (sn p cert m : Str) (hn : sn ≠ []) (u j : Nat) (hj : j ≠ i) (l r : Addr) (mode protos : Str)
    (hw : (run w pre).map (fun w => ((w i).mode, (w i).upgrade)) = some ([], []))
    (hl : Spec.Legal (pre ++ .admitted i sn p cert m :: (mid ++ .dialed c u j l r mode protos :: post)))
    (h1 : ∀ e ∈ mid, ¬ Spec.Touches i e) (h2 : ∀ e ∈ post, ¬ Spec.Touches i e)
    (hr : run w (pre ++ .admitted i sn p cert m :: (mid ++ .dialed c u j l r mode protos :: post)) = some w') :
    ∃ d, describe w' c = some d ∧ d.serverName = sn ∧ d.mode = m ∧ d.proto = p ∧ d.cert = cert ∧
      d.internal = some (l, r) ∧ d.upgrade = [] := by
  obtain ⟨w1, w2, r1, s1, hr⟩ := run_split hr
  obtain ⟨w3, w4, r2, s2, r3⟩ := run_split hr
  have hl2 := (legal_split hl).2
  have hl3 : Spec.Legal (mid ++ .dialed c u j l r mode protos :: post) := fun e he => hl2 e (List.mem_cons_of_mem _ he)
  have lm := (legal_split hl3).1
  have lp : Spec.Legal post := fun e he => (legal_split hl3).2 e (List.mem_cons_of_mem _ he)
  rw [r1] at hw
  simp only [Option.map_some, Option.some.injEq, Prod.mk.injEq] at hw
  have e1 : w2 i = { w1 i with serverName := sn, proto := p, cert := cert, backend := some m } := by
    cases s1
    simp [put]
  have e2 : w3 i = w2 i := run_other lm h1 r2
  have e3 : w4 i = { w3 i with internal := some (l, r) } := by
    simp only [step, annotated_context hc] at s2
    cases s2
    simp [put, Ne.symm hj]
  have e4 : w' i = w4 i := run_other lp h2 r3
  have e5 : w' i = { w1 i with serverName := sn, proto := p, cert := cert, backend := some m, internal := some (l, r) } := by
    rw [e4, e3, e2, e1]
  unfold describe
  rw [annotated_context hc]
  refine ⟨_, rfl, ?_, ?_, ?_, ?_, ?_, ?_⟩ <;> simp [e5, hn, connMode, hw.1, hw.2]

/-- C153. After a switch to another protocol, descriptions of the connection of a client with a server name show it. -/
theorem upgrade_line (w w' : World) (c : Conn) (i : Nat) (hc : Spec.InContext c i) (u : Str) (post : List Ev)
    (hn : (w i).serverName ≠ []) (hl : Spec.Legal (.upgraded c u :: post)) (h : ∀ e ∈ post, ¬ Spec.Touches i e)
    (hr : run w (.upgraded c u :: post) = some w') :
    ∃ d, describe w' c = some d ∧ d.upgrade = u ∧ d.serverName = (w i).serverName := by
  obtain ⟨w1, w2, r1, s1, r2⟩ := run_split (a := []) hr
  cases r1
  have lp : Spec.Legal post := fun e he => hl e (List.mem_cons_of_mem _ he)
  have e1 : w2 i = { w i with upgrade := u } := by
    simp only [step, annotated_context hc] at s1
    cases s1
    simp [put]
  have e2 : w' i = { w i with upgrade := u } := by rw [run_other lp h r2, e1]
  unfold describe
  rw [annotated_context hc]
  refine ⟨_, rfl, ?_, ?_⟩ <;> simp [e2, hn]

/-- C153. A description of a connection to a server shows the name that its client asked for, and how the server is
spoken to. -/
theorem server_line (w w' : World) (ctx : Conn) (i u j : Nat) (hc : Spec.InContext ctx i) (hj : j ≠ i) (l r : Addr)
    (mode protos : Str) (hm : mode ≠ []) (hn : (w i).serverName ≠ []) (post : List Ev)
    (hl : Spec.Legal (.dialed ctx u j l r mode protos :: post)) (h : ∀ e ∈ post, ¬ Spec.Touches j e)
    (hr : run w (.dialed ctx u j l r mode protos :: post) = some w') (c : Conn) (hcj : Spec.InContext c j) :
    ∃ d, describe w' c = some d ∧ d.serverName = (w i).serverName ∧ d.mode = mode ∧ d.proto = protos ∧ d.upgrade = [] ∧
      d.internal = none := by
  obtain ⟨w1, w2, r1, s1, r2⟩ := run_split (a := []) hr
  cases r1
  have lp : Spec.Legal post := fun e he => hl e (List.mem_cons_of_mem _ he)
  have e1 : w2 j = { serverName := (w i).serverName, mode := mode, proto := protos } := by
    simp only [step, annotated_context hc] at s1
    cases s1
    simp [put, hj]
  have e2 := (run_other lp h r2).trans e1
  unfold describe
  rw [annotated_context hcj]
  refine ⟨_, rfl, ?_, ?_, ?_, ?_, ?_⟩ <;> simp [e2, hn, hm, connMode]

/-- C153. Of a connection without a server name, nothing but the certificate and the addresses is shown. -/
theorem unnamed_line (w : World) (c : Conn) (i : Nat) (hc : Spec.InContext c i) (hn : (w i).serverName = []) :
    ∃ d, describe w c = some d ∧ d.cert = (w i).cert ∧ d.serverName = [] ∧ d.mode = [] ∧ d.proto = [] ∧ d.upgrade = [] ∧
      d.internal = none := by
  unfold describe
  rw [annotated_context hc]
  refine ⟨_, rfl, rfl, hn, ?_, ?_, ?_, ?_⟩ <;> simp [hn]

/-! ## Streams -/

/-- What was last dialed with the notes of a connection at hand is what is noted there. -/
theorem internal_last {w w' : World} {es : List Ev} {i : Nat} (hl : Spec.Legal es)
    (h : ∀ e ∈ es, match e with | .wrapped _ j => j ≠ i | .dialed _ _ j .. => j ≠ i | _ => True)
    (hr : run w es = some w') : (w' i).internal = ((Spec.dials i es).head?).or (w i).internal := by
  induction es generalizing w with
  | nil => cases hr; rfl
  | cons e es ih =>
    rw [run] at hr
    cases hs : step w e with
    | none => rw [hs] at hr; cases hr
    | some w1 =>
      rw [hs] at hr
      have i1 := ih (fun e he => hl e (List.mem_cons_of_mem _ he)) (fun e he => h e (List.mem_cons_of_mem _ he)) hr
      have hle := hl e List.mem_cons_self
      have he := h e List.mem_cons_self
      rw [i1]
      cases e with
      | admitted j sn p cert m =>
        cases hs
        by_cases hj : i = j <;> simp [Spec.dials, put, hj]
      | wrapped p j =>
        cases hs
        simp [Spec.dials, put, Ne.symm he]
      | dialed ctx u j l r m p =>
        obtain ⟨k, hk⟩ := hle
        simp only [step, annotated_context hk] at hs
        cases hs
        by_cases hi : k = i
        · subst hi
          simp [Spec.dials, put, home_context hk]
        · have : Spec.home ctx ≠ some i := by rw [home_context hk]; simpa using hi
          simp [Spec.dials, put, this, Ne.symm hi, Ne.symm he]
      | upgraded ctx u =>
        obtain ⟨k, hk⟩ := hle
        simp only [step, annotated_context hk] at hs
        cases hs
        by_cases hi : i = k <;> simp [Spec.dials, put, hi]

/-- What a description of a stream shows is what was last dialed for its QUIC connection before it was accepted. -/
theorem stream_line (w w' : World) (q i : Nat) (lo re : Addr) (pre post : List Ev) (hq : (w q).internal = none)
    (hl : Spec.Legal (pre ++ .wrapped q i :: post))
    (h : ∀ e ∈ pre, match e with | .wrapped _ j => j ≠ q | .dialed _ _ j .. => j ≠ q | _ => True)
    (h2 : ∀ e ∈ post, ¬ Spec.Touches i e) (hr : run w (pre ++ .wrapped q i :: post) = some w') :
    ∃ d, describe w' (.netw i (.stream lo re)) = some d ∧
      (d.serverName ≠ [] → d.internal = (Spec.dials q pre).head?) ∧ (d.serverName = [] → d.internal = none) := by
  obtain ⟨w1, w2, r1, s1, r2⟩ := run_split hr
  have lp : Spec.Legal post := fun e he => (legal_split hl).2 e (List.mem_cons_of_mem _ he)
  have e1 := internal_last (legal_split hl).1 h r1
  have e2 : w2 i = w1 q := by
    cases s1
    simp [put]
  have e3 := run_other lp h2 r2
  rw [hq, Option.or_none] at e1
  refine ⟨_, rfl, ?_, ?_⟩
  · intro hn
    have hn : (w' i).serverName ≠ [] := hn
    show (if (w' i).serverName ≠ [] then (w' i).internal else none) = _
    rw [if_pos hn, e3, e2, e1]
  · intro hn
    have hn : (w' i).serverName = [] := hn
    show (if (w' i).serverName ≠ [] then (w' i).internal else none) = _
    rw [if_neg (fun h => h hn)]

/-- C153, the missing part. The connection to the server in a description of a stream is never the one that the stream is
bridged to, which is made after the stream is accepted: it is missing, or that of another stream. -/
theorem stream_line_violated (w w' : World) (q i : Nat) (lo re : Addr) (pre mid post : List Ev) (ctx : Conn)
    (j : Nat) (l r : Addr) (mode protos : Str) (hq : (w q).internal = none)
    (hl : Spec.Legal (pre ++ .wrapped q i :: (mid ++ .dialed ctx i j l r mode protos :: post)))
    (h : ∀ e ∈ pre, match e with | .wrapped _ j => j ≠ q | .dialed _ _ j .. => j ≠ q | _ => True)
    (h2 : ∀ e ∈ mid ++ .dialed ctx i j l r mode protos :: post, ¬ Spec.Touches i e)
    (hfresh : (l, r) ∉ Spec.dials q pre)
    (hr : run w (pre ++ .wrapped q i :: (mid ++ .dialed ctx i j l r mode protos :: post)) = some w') :
    ∃ d, describe w' (.netw i (.stream lo re)) = some d ∧ d.internal ≠ some (l, r) := by
  obtain ⟨d, hd, h3, h4⟩ := stream_line w w' q i lo re pre _ hq hl h h2 hr
  refine ⟨d, hd, ?_⟩
  intro he
  by_cases hn : d.serverName = []
  · rw [h4 hn] at he
    cases he
  · rw [h3 hn] at he
    exact hfresh (List.mem_of_mem_head? he)

/-- C153 (partial: backends of mode QUIC, where all streams use one connection to the server, which is made before the
first one is accepted). The connection in a description of a stream is the one that it is bridged to. -/
theorem stream_line_partial (w w' : World) (q i : Nat) (lo re : Addr) (qc : Conn) (hqc : Spec.InContext qc q)
    (pre mid post : List Ev) (u j : Nat) (hj : j ≠ q) (l r : Addr) (mode protos : Str) (hq : (w q).internal = none)
    (hl : Spec.Legal (pre ++ .dialed qc u j l r mode protos :: mid ++ .wrapped q i :: post))
    (h : ∀ e ∈ pre ++ .dialed qc u j l r mode protos :: mid,
      match e with | .wrapped _ j => j ≠ q | .dialed _ _ j .. => j ≠ q | _ => True)
    (h1 : Spec.dials q mid = []) (h2 : ∀ e ∈ post, ¬ Spec.Touches i e)
    (hr : run w (pre ++ .dialed qc u j l r mode protos :: mid ++ .wrapped q i :: post) = some w') :
    ∃ d, describe w' (.netw i (.stream lo re)) = some d ∧ (d.serverName ≠ [] → d.internal = some (l, r)) := by
  obtain ⟨d, hd, h3, _⟩ := stream_line w w' q i lo re _ post hq hl h h2 hr
  refine ⟨d, hd, fun hn => ?_⟩
  rw [h3 hn]
  have : ∀ pre, (Spec.dials q (pre ++ .dialed qc u j l r mode protos :: mid)).head? = some (l, r) := by
    intro pre
    induction pre with
    | nil => simp [Spec.dials, h1, home_context hqc]
    | cons e pre ih =>
      cases e with
      | dialed ctx' u' j' l' r' m' p' =>
        rw [List.cons_append]
        simp only [Spec.dials]
        rw [List.head?_append, ih]
        rfl
      | _ => exact ih
  exact this pre

/-! ## Requests -/

/-- C153 (partial: no other connection to a server has been made for the client since). A line about a request, or one
about the end of a connection, shows the connection to the server that was made for it. -/
theorem request_line_partial (w w' : World) (c : Conn) (i : Nat) (hc : Spec.InContext c i) (es post : List Ev) (u j : Nat)
    (hj : j ≠ i) (l r : Addr) (mode protos : Str)
    (hl : Spec.Legal (es ++ .dialed c u j l r mode protos :: post))
    (hp : Spec.dials i post = []) (h : ∀ e ∈ post, match e with | .wrapped _ j => j ≠ i | .dialed _ _ j .. => j ≠ i | _ => True)
    (hr : run w (es ++ .dialed c u j l r mode protos :: post) = some w') :
    ∃ d, describe w' c = some d ∧ (d.serverName ≠ [] → d.internal = some (l, r)) := by
  obtain ⟨w1, w2, r1, s1, r2⟩ := run_split hr
  have lp : Spec.Legal post := fun e he => (legal_split hl).2 e (List.mem_cons_of_mem _ he)
  have e1 := internal_last lp h r2
  have e2 : (w2 i).internal = some (l, r) := by
    simp only [step, annotated_context hc] at s1
    cases s1
    simp [put]
  rw [hp, e2] at e1
  unfold describe
  rw [annotated_context hc]
  refine ⟨_, rfl, fun hn => ?_⟩
  have hn : (w' i).serverName ≠ [] := hn
  show (if (w' i).serverName ≠ [] then (w' i).internal else none) = _
  rw [if_pos hn, e1]
  rfl

/-- C153, the missing part. Whatever connection a request uses, lines about it show the one that was made last for any
request of the same client connection. -/
theorem request_line_violated (w w' : World) (c : Conn) (i : Nat) (hc : Spec.InContext c i) (es post : List Ev)
    (u1 u2 j1 j2 : Nat) (hj : j2 ≠ i) (l1 r1 l2 r2 : Addr) (m1 p1 m2 p2 : Str) (hne : (l1, r1) ≠ (l2, r2))
    (hl : Spec.Legal ((es ++ [.dialed c u1 j1 l1 r1 m1 p1]) ++ .dialed c u2 j2 l2 r2 m2 p2 :: post))
    (hp : Spec.dials i post = []) (h : ∀ e ∈ post, match e with | .wrapped _ j => j ≠ i | .dialed _ _ j .. => j ≠ i | _ => True)
    (hr : run w ((es ++ [.dialed c u1 j1 l1 r1 m1 p1]) ++ .dialed c u2 j2 l2 r2 m2 p2 :: post) = some w') :
    ∃ d, describe w' c = some d ∧ d.internal ≠ some (l1, r1) := by
  obtain ⟨d, hd, h1⟩ := request_line_partial w w' c i hc _ post u2 j2 hj l2 r2 m2 p2 hl hp h hr
  refine ⟨d, hd, fun he => ?_⟩
  by_cases hn : d.serverName = []
  · have : d.internal = none := by
      unfold describe at hd
      rw [annotated_context hc] at hd
      cases hd
      have hn : (w' i).serverName = [] := hn
      show (if (w' i).serverName ≠ [] then (w' i).internal else none) = _
      rw [if_neg (fun h => h hn)]
    rw [this] at he
    cases he
  · rw [h1 hn] at he
    exact hne (Option.some.inj he).symm

/-! ## The page with metrics -/

/-- What the page shows for the streams of a QUIC connection: for each one the server that was dialed last. -/
theorem console_streams (w w' : World) (q : Nat) (lo re : Addr) (es : List Ev) (streams : List (Option Addr))
    (hs : streams ≠ []) (hq : (w q).internal = none) (hl : Spec.Legal es)
    (h : ∀ e ∈ es, match e with | .wrapped _ j => j ≠ q | .dialed _ _ j .. => j ≠ q | _ => True)
    (hr : run w es = some w') :
    destinations w' (.quic q lo re) streams = some (match Spec.dials q es with
      | [] => streams
      | (_, r) :: _ => streams.map fun _ => some r) := by
  have e1 := internal_last hl h hr
  rw [hq, Option.or_none] at e1
  unfold destinations
  simp only [annotated]
  rw [if_neg hs, e1]
  cases Spec.dials q es with
  | nil => simp
  | cons p t => simp

/-- C153 (partial: all streams of the connection are bridged to the same address). The page shows it. -/
theorem console_partial (w w' : World) (q : Nat) (lo re a : Addr) (es : List Ev) (streams : List (Option Addr))
    (hs : streams ≠ []) (hq : (w q).internal = none) (hl : Spec.Legal es)
    (h : ∀ e ∈ es, match e with | .wrapped _ j => j ≠ q | .dialed _ _ j .. => j ≠ q | _ => True)
    (hall : ∀ p ∈ Spec.dials q es, p.2 = a) (hb : ∀ b ∈ streams, b = some a)
    (hr : run w es = some w') : destinations w' (.quic q lo re) streams = some streams := by
  rw [console_streams w w' q lo re es streams hs hq hl h hr]
  cases hd : Spec.dials q es with
  | nil => rfl
  | cons p t =>
    have hp := hall p (by rw [hd]; exact List.mem_cons_self)
    obtain ⟨l, r⟩ := p
    cases hp
    simp only [Option.some.injEq]
    conv => rhs; rw [← List.map_id' streams]
    exact List.map_congr_left fun b hb' => (hb b hb').symm

/-- C153, the missing part. The page shows one server for all streams, although it knows the one of each. -/
theorem console_violated (w w' : World) (q : Nat) (lo re a b : Addr) (hab : a ≠ b) (es : List Ev) (l : Addr)
    (t : List (Addr × Addr)) (hq : (w q).internal = none) (hl : Spec.Legal es)
    (h : ∀ e ∈ es, match e with | .wrapped _ j => j ≠ q | .dialed _ _ j .. => j ≠ q | _ => True)
    (hd : Spec.dials q es = (l, b) :: t) (hr : run w es = some w') :
    destinations w' (.quic q lo re) [some a, some b] = some [some b, some b] ∧
    [some b, some b] ≠ [some a, some b] := by
  rw [console_streams w w' q lo re es _ (by simp) hq hl h hr, hd]
  refine ⟨rfl, ?_⟩
  intro he
  exact hab (Option.some.inj (List.cons.inj he).1).symm

/-! ## Examples -/

namespace Ex

def start : World := fun _ => {}

/-- A client at 7 behind a load balancer at 9, which connected to 8; the proxy is at 10. -/
def client : Conn := .tls (.netw 1 (.proxy (.tcp 10 9) (some (7, 8))))

theorem ctx : Spec.InContext client 1 := .tls _ _ (.balanced _ _ _)

example : ∃ d, describe start client = some d ∧ Spec.Client client d.remote ∧ ∀ a, d.via = some a ↔ Spec.Via client a :=
  addresses start ctx

example : (describe start client).map (fun d => (d.remote, d.via)) = some (7, some 8) := rfl

/-- Two connections of clients are admitted, and bridged one after the other. -/
def story : List Ev :=
  [] ++ .admitted 1 "www".toList [] [] "TLS".toList ::
    ([.admitted 2 "ftp".toList [] [] "TCP".toList] ++ .dialed client 1 3 20 30 "TLS".toList [] ::
      [.dialed (.netw 2 (.tcp 10 11)) 2 4 21 31 "TCP".toList []])

theorem legal : Spec.Legal story := by
  intro e he
  simp only [story, List.nil_append, List.cons_append, List.mem_cons, List.not_mem_nil, or_false] at he
  rcases he with rfl | rfl | rfl | rfl
  · trivial
  · trivial
  · exact ⟨1, ctx⟩
  · exact ⟨2, .passed _ _ (.direct _ _)⟩

example : (run start story).isSome := no_panic start story legal

example (w' : World) (hr : run start story = some w') :
    ∃ d, describe w' client = some d ∧ d.serverName = "www".toList ∧ d.mode = "TLS".toList ∧ d.proto = [] ∧ d.cert = [] ∧
      d.internal = some (20, 30) ∧ d.upgrade = [] := by
  refine bridged_line start w' client 1 ctx [] _ _ _ _ _ _ (by decide) 1 3 (by decide) 20 30 _ _ rfl legal ?_ ?_ hr
  · intro e he
    obtain rfl := List.mem_singleton.1 he
    show ¬ 2 = 1
    decide
  · intro e he
    obtain rfl := List.mem_singleton.1 he
    show ¬ (4 = 1 ∨ Spec.InContext (.netw 2 (.tcp 10 11)) 1)
    rintro (h | h)
    · cases h
    · cases h

/-- A switch to WebSocket. -/
example (w' : World) (hr : run (fun _ => { serverName := "www".toList }) [.upgraded client "websocket".toList] = some w') :
    ∃ d, describe w' client = some d ∧ d.upgrade = "websocket".toList ∧ d.serverName = "www".toList :=
  upgrade_line _ w' client 1 ctx _ [] (by decide) (by intro e he; obtain rfl := List.mem_singleton.1 he; exact ⟨1, ctx⟩)
    (fun _ h => nomatch h) hr

example (w' : World)
    (hr : run (fun _ => { serverName := "www".toList }) [.dialed client 1 3 20 30 "TLS".toList "h2".toList] = some w') :
    ∃ d, describe w' (.netw 3 (.tcp 20 30)) = some d ∧ d.serverName = "www".toList ∧ d.mode = "TLS".toList ∧
      d.proto = "h2".toList ∧ d.upgrade = [] ∧ d.internal = none :=
  server_line _ w' client 1 1 3 ctx (by decide) 20 30 _ _ (by decide) (by decide) []
    (by intro e he; obtain rfl := List.mem_singleton.1 he; exact ⟨1, ctx⟩) (fun _ h => nomatch h) hr _
    (.passed _ _ (.direct _ _))

example : ∃ d, describe start client = some d ∧ d.cert = [] ∧ d.serverName = [] ∧ d.mode = [] ∧ d.proto = [] ∧
    d.upgrade = [] ∧ d.internal = none := unnamed_line start client 1 ctx rfl

/-- Two streams of one QUIC connection, which are bridged to servers at 31 and 32. -/
def streams : List Ev :=
  [.admitted 1 "www".toList "x".toList [] "TCP".toList, .wrapped 1 2, .dialed (.quic 1 10 7) 2 4 21 31 "TCP".toList []] ++
    .wrapped 1 3 :: ([] ++ .dialed (.quic 1 10 7) 3 5 22 32 "TCP".toList [] :: [])

theorem slegal : Spec.Legal streams := by
  intro e he
  simp only [streams, List.nil_append, List.cons_append, List.mem_cons, List.not_mem_nil, or_false] at he
  rcases he with rfl | rfl | rfl | rfl | rfl
  · trivial
  · trivial
  · exact ⟨1, .quic _ _ _⟩
  · trivial
  · exact ⟨1, .quic _ _ _⟩

/-- The line about the second stream shows the connection of the first one. -/
example : ((run start streams).bind fun w => describe w (.netw 3 (.stream 10 7))).map (·.internal) = some (some (21, 31)) := by
  decide +kernel

/-- The line about the first stream shows none. -/
example : ((run start streams).bind fun w => describe w (.netw 2 (.stream 10 7))).map (·.internal) = some none := by
  decide +kernel

example (w' : World) (hr : run start streams = some w') :
    ∃ d, describe w' (.netw 3 (.stream 10 7)) = some d ∧ d.internal ≠ some (22, 32) := by
  refine stream_line_violated start w' 1 3 10 7 _ [] [] _ 5 22 32 _ _ rfl slegal ?_ ?_ (by decide) hr
  · intro e he
    simp only [List.mem_cons, List.not_mem_nil, or_false] at he
    rcases he with rfl | rfl | rfl
    · trivial
    · exact (by decide : 2 ≠ 1)
    · exact (by decide : 4 ≠ 1)
  · intro e he
    obtain rfl := List.mem_singleton.1 he
    show ¬ (5 = 3 ∨ Spec.InContext (.quic 1 10 7) 3)
    rintro (h | h)
    · cases h
    · cases h

example (w' : World) (hr : run start streams = some w') :
    destinations w' (.quic 1 10 7) [some 31, some 32] = some [some 32, some 32] := by
  refine (console_violated start w' 1 10 7 31 32 (by decide) streams 22 [(21, 31)] rfl slegal ?_ (by decide) hr).1
  intro e he
  simp only [streams, List.nil_append, List.cons_append, List.mem_cons, List.not_mem_nil, or_false] at he
  rcases he with rfl | rfl | rfl | rfl | rfl
  · trivial
  · exact (by decide : 2 ≠ 1)
  · exact (by decide : 4 ≠ 1)
  · exact (by decide : 3 ≠ 1)
  · exact (by decide : 5 ≠ 1)

/-- Three requests of one client: for the first two connections are made, the third uses that of the first again. -/
def requests : List Ev :=
  ([.admitted 1 "www".toList "h2".toList [] "HTTPS".toList] ++ [.dialed client 101 4 21 31 "HTTPS".toList []]) ++
    .dialed client 102 5 22 32 "HTTPS".toList [] :: []

example (w' : World) (hr : run start requests = some w') :
    ∃ d, describe w' client = some d ∧ d.internal ≠ some (21, 31) := by
  refine request_line_violated start w' client 1 ctx _ [] 101 102 4 5 (by decide) 21 31 22 32 _ _ _ _ (by decide) ?_ rfl
    (fun _ h => (nomatch h)) hr
  intro e he
  simp only [List.nil_append, List.cons_append, List.mem_cons, List.not_mem_nil, or_false] at he
  rcases he with rfl | rfl | rfl
  · trivial
  · exact ⟨1, ctx⟩
  · exact ⟨1, ctx⟩

end Ex

end Verif.Layers

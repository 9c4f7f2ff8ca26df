import Verif.Proof.HttpCommSsl
import Verif.Props.Http
/-! C67: requests to HTTP trackers. C88: answers over HTTP. C89: answers over HTTPS. -/

namespace Verif
open Http HttpComm Spec Spec.HttpComm

/-! ### C67 -/

private def exTold : Told where
  hash := [0, 255, 65]; peerId := ascii "-MT0100-"; port := 6881; uploaded := 10; downloaded := 0; left := 12345; numwant := 80; key := 77
  finished := false; encryption := .allow

/-- C67 (partial: for paths that have no query of their own and nothing that ends a request line, see the violations): a server reads
the request as a GET of the path with exactly these fields in this order. The info hash and the peer id mean the right bytes; the numbers
are in decimal digits. -/
theorem C67_request_partial (t : Told) (path host port : List UInt8) (hp : Plain path) :
    let q := readRequest (createRequest t path host port)
    q.method = ascii "GET" ∧ q.path = path ∧ q.version = ascii "HTTP/1.1" ∧
    ∃ ih pid, UrlMeans ih t.hash ∧ UrlMeans pid t.peerId ∧ q.fields =
      [(ascii "info_hash", ih), (ascii "peer_id", pid), (ascii "port", decimal t.port),
        (ascii "uploaded", decimal t.uploaded), (ascii "downloaded", decimal t.downloaded), (ascii "left", decimal t.left),
        (ascii "numwant", decimal t.numwant), (ascii "compact", ascii "1"), (ascii "no_peer_id", ascii "0"), (ascii "key", decimal t.key),
        (ascii "event", if t.finished then ascii "completed" else ascii "started")] ++
      match t.encryption with
      | .refuse => []
      | .allow => [(ascii "supportcrypto", ascii "1")]
      | .require => [(ascii "requirecrypto", ascii "1")] := by
  intro q
  have e : q = _ := readRequest_eq t path host port hp
  rw [e]
  exact ⟨rfl, rfl, rfl, _, _, urlMeans_encode _, urlMeans_encode _, rfl⟩

example : readRequest (createRequest exTold (ascii "/announce") (ascii "t.org") (ascii "80")) = ⟨ascii "GET", ascii "/announce",
    [(ascii "info_hash", ascii "%00%FFA"), (ascii "peer_id", ascii "%2DMT0100%2D"), (ascii "port", ascii "6881"), (ascii "uploaded", ascii "10"),
      (ascii "downloaded", ascii "0"), (ascii "left", ascii "12345"), (ascii "numwant", ascii "80"), (ascii "compact", ascii "1"),
      (ascii "no_peer_id", ascii "0"), (ascii "key", ascii "77"), (ascii "event", ascii "started"), (ascii "supportcrypto", ascii "1")],
    ascii "HTTP/1.1"⟩ := by decide +kernel
example : Plain (ascii "/announce") := by unfold Plain; decide +kernel

/-- C67 (partial: the same): behind the request line come these headers and the empty line that ends the request. -/
theorem C67_headers_partial (t : Told) (path host port : List UInt8) : ∃ line, (Plain path → chr '\r' ∉ line ∧ chr '\n' ∉ line) ∧
    createRequest t path host port = line ++ ascii "\r\nUser-Agent: mtTorrent 0.9\r\nConnection: close\r\nHost: " ++ host ++
      (if port = [] then [] else chr ':' :: port) ++ ascii "\r\nCache-Control: no-cache\r\n\r\n" := by
  refine ⟨ascii "GET" ++ chr ' ' :: ((path ++ chr '?' :: glue (chr '&') ((fieldsOf t).map fieldText)) ++ chr ' ' :: ascii "HTTP/1.1"), ?_, ?_⟩
  · intro hp
    have key : ∀ d : UInt8, plainByte d = false → d ≠ chr '=' → d ≠ chr '&' → d ≠ chr '?' → d ≠ chr ' ' → d ∉ path → d ∉ ascii "GET" →
        d ∉ ascii "HTTP/1.1" → d ∉ ascii "GET" ++ chr ' ' :: ((path ++ chr '?' :: glue (chr '&') ((fieldsOf t).map fieldText)) ++
          chr ' ' :: ascii "HTTP/1.1") := by
      intro d h1 h2 h3 h4 h5 h6 h7 h8 hm
      simp only [List.mem_append, List.mem_cons] at hm
      have hg : d ∉ glue (chr '&') ((fieldsOf t).map fieldText) := by
        refine not_mem_glue _ _ h3 _ ?_
        intro x hx hd
        simp only [List.mem_map] at hx
        obtain ⟨f, hf, rfl⟩ := hx
        simp only [fieldText, List.mem_append, List.mem_cons] at hd
        rcases hd with hd | hd | hd
        · have := (plain_fields t f hf).1 d hd; rw [h1] at this; cases this
        · exact h2 hd
        · have := (plain_fields t f hf).2 d hd; rw [h1] at this; cases this
      rcases hm with hm | hm | (hm | hm | hm) | hm | hm
      · exact h7 hm
      · exact h5 hm
      · exact h6 hm
      · exact h4 hm
      · exact hg hm
      · exact h5 hm
      · exact h8 hm
    exact ⟨key _ (by decide) (by decide) (by decide) (by decide) (by decide) hp.2.2.1 (by decide) (by decide),
      key _ (by decide) (by decide) (by decide) (by decide) (by decide) hp.2.2.2 (by decide) (by decide)⟩
  · rw [request_eq]
    unfold headersOf
    have e : ascii "\r\nUser-Agent: mtTorrent 0.9\r\nConnection: close\r\nHost: " =
      chr '\r' :: ascii "\nUser-Agent: mtTorrent 0.9\r\nConnection: close\r\nHost: " := by decide
    have e2 : ascii ":" = [chr ':'] := by decide
    rw [e, e2]
    cases port <;> simp [List.append_assoc]

/-- C67 is false for trackers whose URL has a query, as private trackers have it: the hash becomes a part of the last value of that
query, and no field has the name `info_hash`. -/
theorem C67_query_violated : ∃ (t : Told) (path host port : List UInt8), chr ' ' ∉ path ∧
    ∀ f ∈ (readRequest (createRequest t path host port)).fields, f.1 ≠ ascii "info_hash" :=
  ⟨exTold, ascii "/announce?passkey=abc", ascii "t.org", ascii "80", by decide +kernel, by decide +kernel⟩

/-- C67 is false for trackers whose URL has no path: what is asked for does not begin with a slash. -/
theorem C67_nopath_violated (t : Told) (host port : List UInt8) : ∃ rest, createRequest t [] host port = ascii "GET ?info_hash=" ++ rest := by
  refine ⟨(createRequest t [] host port).drop 15, ?_⟩
  unfold createRequest
  have e : ascii "GET ?info_hash=" = ascii "GET " ++ ascii "?info_hash=" := by decide
  have l : (ascii "GET " ++ ascii "?info_hash=").length = 15 := by decide
  rw [e]
  simp only [List.append_assoc, List.nil_append]
  rw [← List.append_assoc (ascii "GET ") (ascii "?info_hash="), List.drop_left' l, List.append_assoc]

/-! ### C88 -/

private def exAnswer : Announce := { interval := 60 }
/-- An example of a reader: four bytes are a reply, a first zero is an error. -/
private def exReply (l : List UInt8) : Res (Nat × Announce) :=
  if l.head? = some 0 then .ok (4294967295, {}) else if l.length < 4 then .ok (0, {}) else .ok (4, exAnswer)

/-- C88 (partial: if requests are made one at a time): however connections come and go and whatever arrives, no request ends twice:
the number of answers and failures told is the number of requests, less one while a request is under way. -/
theorem C88_once_partial (reply : List UInt8 → Res (Nat × Announce)) (es : List Ev) (s : Comm) (outs : List Out)
    (ho : OneAtATime reply {} es) (h : run reply {} es = .ok (s, outs)) :
    requests es = outs.length + if s.state = .announcing then 1 else 0 := by
  have := run_busy reply es {} _ ho h
  have e : busy ({} : Comm).state = 0 := rfl
  rw [e] at this
  exact this

example : run exReply {} [.announce [1], .connected 0, .received 0 [1, 2] 3, .received 0 [3, 4] 5, .announce [2], .closed 0] =
    .ok ({ state := .alive, last := 5, interval := 60,
           conns := [{ phase := .disconnected, sent := [[1], [2]], told := false }], cur := none },
      [.result exAnswer, .failed]) := by decide +kernel

/-- C88 (partial: for a request that is not sent over a connection used before): the request is sent once and whole. However
the reply is cut into parts, the owner is told its content once, with the last part, and the tracker shows it. -/
theorem C88_answer_partial (reply : List UInt8 → Res (Nat × Announce)) (s : Comm) (hs : s.cur = none) (r : List UInt8)
    (bs : List (List UInt8 × Nat)) (b : List UInt8) (t : Nat) (a : Announce) (hi : Incomplete reply [] (bs.map (·.1)))
    (hc : Complete reply ((bs.map (·.1)).flatten ++ b) a) :
    ∃ s', run reply s ([.announce r, .connected s.conns.length] ++ arrives s.conns.length bs ++ [.received s.conns.length b t]) =
        .ok (s', [.result a]) ∧
      s'.state = .announced ∧ s'.interval = a.interval ∧ s'.last = t ∧ s'.seeds = a.seed ∧ s'.leeches = a.leech ∧
      s'.peers = a.peers.length % 4294967296 ∧ ∃ k, s'.conns[s.conns.length]? = some k ∧ k.sent = [r] ∧ k.queue = [] := by
  have h0 := asked_of s r hs
  obtain ⟨s1, h1, h2, -⟩ := arrives_incomplete reply _ r bs [] _ h0 hi
  obtain ⟨s2, h3, h4⟩ := arrives_complete reply _ r _ b t s1 h2 a (by simpa using hc)
  refine ⟨s2, ?_, h4⟩
  have e : run reply s [.announce r, .connected s.conns.length] = .ok (connected (announce s r) s.conns.length, []) := rfl
  rw [run_append, run_append, e, Res.bind_ok, h1, Res.bind_ok, Res.pure_eq, Res.bind_ok, h3]
  rfl

example : Incomplete exReply [] [[1, 2]] ∧ Complete exReply ([1, 2] ++ [3, 4]) exAnswer :=
  ⟨⟨⟨_, rfl⟩, trivial⟩, 4, by decide +kernel, by decide, by decide⟩

/-- C88 (partial: the same): a connection that cannot be made, that ends before the reply is complete, or a reply that is not
good, is told as a failure once. The next request gets a connection of its own. -/
theorem C88_fail_partial (reply : List UInt8 → Res (Nat × Announce)) (s : Comm) (hs : s.cur = none) (r : List UInt8)
    (bs : List (List UInt8 × Nat)) (hi : Incomplete reply [] (bs.map (·.1))) :
    (∃ s', run reply s [.announce r, .closed s.conns.length] = .ok (s', [.failed]) ∧ s'.state = (if s.last ≠ 0 then .alive else .offline) ∧ s'.cur = none) ∧
    (∃ s', run reply s ([.announce r, .connected s.conns.length] ++ arrives s.conns.length bs ++ [.closed s.conns.length]) = .ok (s', [.failed]) ∧
      s'.state = (if s.last ≠ 0 then .alive else .offline) ∧ s'.cur = none) ∧
    (∀ b t, Bad reply ((bs.map (·.1)).flatten ++ b) →
      ∃ s', run reply s ([.announce r, .connected s.conns.length] ++ arrives s.conns.length bs ++ [.received s.conns.length b t]) =
        .ok (s', [.failed]) ∧ s'.state = (if s.last ≠ 0 then .alive else .offline) ∧ s'.cur = none) := by
  have h0 := asked_of s r hs
  obtain ⟨s1, h1, h2, hl⟩ := arrives_incomplete reply _ r bs [] _ h0 hi
  rw [(last_of s r _).2] at hl
  have e : run reply s [.announce r, .connected s.conns.length] = .ok (connected (announce s r) s.conns.length, []) := rfl
  refine ⟨?_, ?_, ?_⟩
  · have e1 : (announce s r).conns[s.conns.length]? = some { phase := .connecting, queue := [r] } := by
      simp [announce, hs, Conn.write]
    have e3 : (announce s r).state = .announcing := by simp [announce, hs]
    obtain ⟨s', h3, h4⟩ := closed_asked reply _ _ _ e1 (.inl rfl) rfl e3
    rw [(last_of s r 0).1] at h4
    refine ⟨s', ?_, h4⟩
    show run reply s ([.announce r] ++ [.closed s.conns.length]) = _
    have e : run reply s [.announce r] = .ok (announce s r, []) := rfl
    rw [run_append, e, Res.bind_ok, h3]
    rfl
  · obtain ⟨s2, h3, h4⟩ := closed_asked reply _ _ _ h2.conn (.inr rfl) rfl h2.state
    rw [hl] at h4
    refine ⟨s2, ?_, h4⟩
    rw [run_append, run_append, e, Res.bind_ok, h1, Res.bind_ok, Res.pure_eq, Res.bind_ok, h3]
    rfl
  · intro b t hb
    obtain ⟨s2, h3, h4⟩ := arrives_bad reply _ r _ b t s1 h2 (by simpa using hb)
    rw [hl] at h4
    refine ⟨s2, ?_, h4⟩
    rw [run_append, run_append, e, Res.bind_ok, h1, Res.bind_ok, Res.pure_eq, Res.bind_ok, h3]
    rfl

example : Bad exReply ([] ++ [0]) := ⟨_, rfl⟩

/-- C88 (partial: as long as there was one connection only): after the tracker was stopped its owner is told nothing more and its
connection is ended, whatever happens until it is asked again. -/
theorem C88_stop_partial (reply : List UInt8 → Res (Nat × Announce)) (s : Comm) (hs : s.cur = some 0) (hl : s.conns.length = 1) (es : List Ev)
    (he : ∀ e ∈ es, ∀ r, e ≠ .announce r) : ∃ s', run reply s (.deinit :: es) = .ok (s', []) ∧ s'.cur = none ∧ s'.state = s.state ∧
      ∀ k ∈ s'.conns, k.phase = .disconnected := by
  obtain ⟨k, hk⟩ := List.length_eq_one_iff.mp hl
  have e : (deinit s).conns = [{ k with told := false, phase := .disconnected }] := by simp [deinit, hs, hk]
  have hd : ∀ k ∈ (deinit s).conns, k.phase = .disconnected := by rw [e]; simp
  have hr := mute_run reply es (deinit s) hd rfl he
  refine ⟨deinit s, ?_, rfl, rfl, hd⟩
  rw [run]
  simp only [step, Res.bind_ok]
  rw [hr]
  rfl

example : (run exReply {} [.announce [1], .connected 0, .deinit, .received 0 [1, 2, 3, 4] 5, .closed 0]).map' (·.2) = .ok [] := by decide +kernel

private theorem dumb (reply : List UInt8 → Res (Nat × Announce)) : ∀ (es : List Ev) (s : Comm) (k : Conn), s.conns = [k] → k.phase = .disconnected →
    s.cur = some 0 → s.state = .announcing → (∀ e ∈ es, e ≠ .deinit) → ∃ s', run reply s es = .ok (s', []) ∧ s'.state = .announcing ∧
      ∃ k', s'.conns = [k'] ∧ k'.sent = k.sent
  | [], s, k, h1, _, _, h4, _ => ⟨s, rfl, h4, k, h1, rfl⟩
  | e :: es, s, k, h1, h2, h3, h4, he => by
    have hstep : ∃ s1 k1, step reply s e = .ok (s1, []) ∧ s1.conns = [k1] ∧ k1.phase = .disconnected ∧ s1.cur = some 0 ∧ s1.state = .announcing ∧
        k1.sent = k.sent := by
      have hget : ∀ (c : Nat) (k' : Conn), s.conns[c]? = some k' → k'.phase = Tcp.Phase.disconnected := by
        intro c k' hc
        rw [h1] at hc
        cases c with
        | zero => simp at hc; rw [← hc]; exact h2
        | succ c => simp at hc
      cases e with
      | announce r => exact ⟨_, k.write r, rfl, by simp [announce, h3, h1], by simp [Conn.write, h2], by simp [announce, h3], by simp [announce],
          by simp [Conn.write, h2]⟩
      | connected c =>
        refine ⟨s, k, ?_, h1, h2, h3, h4, rfl⟩
        simp only [step, connected]
        split
        · rename_i k' hk
          rw [if_neg (by rw [hget c k' hk]; simp)]
        · rfl
      | received c bs t =>
        refine ⟨s, k, ?_, h1, h2, h3, h4, rfl⟩
        simp only [step, received]
        split
        · rename_i k' hk
          rw [if_neg (by rw [hget c k' hk]; simp)]
        · rfl
      | closed c =>
        refine ⟨s, k, ?_, h1, h2, h3, h4, rfl⟩
        simp only [step, closed]
        split
        · rename_i k' hk
          rw [if_neg (by rw [hget c k' hk]; simp)]
        · rfl
      | deinit => exact absurd rfl (he _ (by simp))
    obtain ⟨s1, k1, g1, g2, g3, g4, g5, g6⟩ := hstep
    obtain ⟨s', i1, i2, k', i3, i4⟩ := dumb reply es s1 k1 g2 g3 g4 g5 (fun e' he' => he e' (List.mem_cons_of_mem _ he'))
    refine ⟨s', ?_, i2, k', i3, i4.trans g6⟩
    rw [run, g1, Res.bind_ok, i1]
    rfl

/-- A tracker that has answered, ended the connection and is asked again. -/
private def afterClose (a : Announce) (t : Nat) (r r2 rest : List UInt8) : Comm where
  state := .announcing; last := t; interval := a.interval; peers := a.peers.length % 4294967296; seeds := a.seed; leeches := a.leech; cur := some 0
  conns := [{ phase := .disconnected, sent := [r], queue := [r2], buffer := rest, told := false }]

/-- C88 is false for the second request: servers end the connection behind the reply, as they were asked to. The stream is kept and does
not connect again. The next request is never sent and never ends, whatever happens and however often it is repeated. -/
theorem C88_again_violated (reply : List UInt8 → Res (Nat × Announce)) (b : List UInt8) (a : Announce) (t : Nat) (hc : Complete reply b a)
    (r r2 : List UInt8) (es : List Ev) (he : ∀ e ∈ es, e ≠ .deinit) :
    ∃ s', run reply {} ([.announce r, .connected 0, .received 0 b t, .closed 0, .announce r2] ++ es) = .ok (s', [.result a]) ∧
      s'.state = .announcing ∧ ∃ k, s'.conns = [k] ∧ k.sent = [r] := by
  obtain ⟨k, hk, h1, h2⟩ := hc
  have e1 : run reply {} [.announce r, .connected 0, .received 0 b t, .closed 0, .announce r2] = .ok (afterClose a t r r2 (b.drop k), [.result a]) := by
    simp [run, step, announce, Conn.write, connected, onConnected, State.toNat, received, onReceived, hk, h1, h2, closed, onClosed, announced,
      Res.bind_ok, Res.pure_eq, afterClose]
  obtain ⟨s', h3, h4, k', h5, h6⟩ := dumb reply es (afterClose a t r r2 (b.drop k)) _ rfl rfl rfl rfl he
  refine ⟨s', ?_, h4, k', h5, h6⟩
  rw [run_append, e1, Res.bind_ok, h3]
  rfl

example : Complete exReply [1, 2, 3, 4] exAnswer := ⟨4, by decide +kernel, by decide, by decide⟩

/-- C88 is false after a reply that was not good: the connection it came over stays open, and when it ends the request that is
under way then fails, though its own connection stands. Its answer is then not taken. -/
theorem C88_stale_violated (reply : List UInt8 → Res (Nat × Announce)) (b b2 : List UInt8) (t t2 : Nat) (hb : Bad reply b) (r r2 : List UInt8) :
    ∃ s', run reply {} [.announce r, .connected 0, .received 0 b t, .announce r2, .connected 1, .closed 0, .received 1 b2 t2] =
      .ok (s', [.failed, .failed]) ∧ ∃ k, s'.conns[1]? = some k ∧ k.phase = .connected ∧ k.sent = [r2] := by
  obtain ⟨x, hx⟩ := hb
  simp [run, step, announce, Conn.write, connected, onConnected, State.toNat, received, onReceived, hx, closed, onClosed, fail,
      Res.bind_ok, Res.pure_eq]

private def exChunked : List UInt8 := ascii "HTTP/1.1 200 OK\r\nTransfer-Encoding: chunked\r\n\r\n10\r\nd8:intervali60ee\r\n0\r\n\r\n"

/-- C88 is false for servers that leave the connection open: what is behind the reply, like the end of the chunks, is not removed and
stands in front of the next reply. The same reply is good the first time and fails the second time. -/
theorem C88_rest_violated : ∃ s', run (fun l => readAnnounce ⟨[], 0, false⟩ 20 20 l []) {}
    [.announce [1], .connected 0, .received 0 exChunked 5, .announce [2], .received 0 exChunked 9] = .ok (s', [.result exAnswer, .failed]) := by
  have : (Res.map' Prod.snd (run (fun l => readAnnounce ⟨[], 0, false⟩ 20 20 l []) {}
    [.announce [1], .connected 0, .received 0 exChunked 5, .announce [2], .received 0 exChunked 9])) = .ok [.result exAnswer, .failed] := by
    decide +kernel
  revert this
  cases run (fun l => readAnnounce ⟨[], 0, false⟩ 20 20 l []) {}
      [.announce [1], .connected 0, .received 0 exChunked 5, .announce [2], .received 0 exChunked 9] with
  | ok x => intro h; exact ⟨x.1, by cases x; simp [Res.map'] at h; rw [h]⟩
  | ub => intro h; cases h
  | diverge => intro h; cases h

/-- C88 is false for replies that are cut inside a line of the header: reading the first part does not end. -/
theorem C88_cut_violated (junk : Net.Addr) (n fuel : Nat) (r after : List UInt8) (t : Nat) :
    run (fun l => readAnnounce junk n fuel l after) {} [.announce r, .connected 0, .received 0 (ascii "HTTP/1.1 200 OK\r\nContent-Len") t] = .diverge := by
  have e : ascii "HTTP/1.1 200 OK\r\nContent-Len" = [ascii "HTTP/1.1 200 OK"].flatMap (fun l => l ++ crlf) ++ ascii "Content-Len" := by decide +kernel
  have hd : read n (ascii "HTTP/1.1 200 OK\r\nContent-Len") after = .diverge := by
    rw [e]
    refine C43_prefix_violated _ _ after ?_ (oneLine_of' (by decide +kernel)) (by decide) (by decide +kernel) n
    intro l hl
    simp only [List.mem_cons, List.not_mem_nil, or_false] at hl
    rw [hl]
    exact ⟨by decide, oneLine_of' (by decide +kernel)⟩
  have hr : readAnnounce junk n fuel (ascii "HTTP/1.1 200 OK\r\nContent-Len") after = .diverge := by
    unfold readAnnounce
    rw [hd]
    rfl
  simp [run, step, announce, Conn.write, connected, onConnected, State.toNat, received, onReceived, hr,
      bind, Res.bind]
where
  oneLine_of' {l : List UInt8} (h : (13 : UInt8) ∉ l) : OneLine l := by
    intro a b he; exact h (by rw [he]; simp [crlf])

/-! ### C89 -/

/-- C89 (partial: if requests are made one at a time): no request over HTTPS ends twice: the number of answers and failures told is
the number of requests, less one while a request is under way. -/
theorem C89_once_partial (reply : List UInt8 → Res (Nat × Announce)) (es : List SslEv) (s : Ssl) (outs : List Out)
    (ho : SslOneAtATime reply {} es) (h : sslRun reply {} es = .ok (s, outs)) :
    sslRequests es = outs.length + if s.state = .announcing then 1 else 0 := by
  have := sslRun_busy reply es {} _ ho h
  have e : busy ({} : Ssl).state = 0 := rfl
  rw [e] at this
  exact this

example : sslRun exReply {} (opening [1] 1 ++ [.received [1, 2, 3, 4] 5, .announce [2], .error]) =
    .ok ({ state := .alive, last := 5, interval := 60, phase := .disconnected, known := true, used := true, writeBuffer := [2], sent := [1] },
      [.result exAnswer, .failed]) := by decide +kernel

/-- C89 (partial: the first request, if the socket takes it in one go; a reply that is read in full blocks of 512 bytes but for the
last, which is shorter): the request is sent, and the owner is told the content of the reply once. The connection stands. -/
theorem C89_answer_partial (reply : List UInt8 → Res (Nat × Announce)) (s : Ssl) (hs : Fresh s) (r : List UInt8) (n : Nat) (hn : r.length ≤ n)
    (bs : List (List UInt8 × Nat)) (hb : ∀ x ∈ bs, x.1.length = 512) (b : List UInt8) (t : Nat) (hne : b ≠ []) (hl : b.length < 512)
    (a : Announce) (hc : Complete reply ((bs.map (·.1)).flatten ++ b) a) :
    ∃ s', sslRun reply s (opening r n ++ blocks bs ++ [.received b t]) = .ok (s', [.result a]) ∧
      s'.state = .announced ∧ s'.interval = a.interval ∧ s'.last = t ∧ s'.seeds = a.seed ∧ s'.leeches = a.leech ∧
      s'.peers = a.peers.length % 4294967296 ∧ Linked s' ∧ s'.sent = s.sent ++ r := by
  obtain ⟨s1, h1, h2, h3⟩ := opening_asked reply s r n hs
  obtain ⟨s2, h4, h5, h6, -⟩ := blocks_full reply bs [] s1 h2 hb
  obtain ⟨s3, h7, g1, g2, g3, g4, g5, g6, g7, g8⟩ := block_complete reply _ b t s2 h5 hne hl a (by simpa using hc)
  refine ⟨s3, ?_, g1, g2, g3, g4, g5, g6, g7, by rw [g8, h6, h3, List.take_of_length_le hn]⟩
  rw [sslRun_append, sslRun_append, h1, Res.bind_ok, h4, Res.bind_ok, Res.pure_eq, Res.bind_ok, h7]
  rfl

/-- C89 (partial: the same, if the server leaves the connection open): further requests are sent and answered over the same
connection. -/
theorem C89_further_partial (reply : List UInt8 → Res (Nat × Announce)) (s : Ssl) (hs : Linked s) (r : List UInt8) (n : Nat) (hn : r.length ≤ n)
    (bs : List (List UInt8 × Nat)) (hb : ∀ x ∈ bs, x.1.length = 512) (b : List UInt8) (t : Nat) (hne : b ≠ []) (hl : b.length < 512)
    (a : Announce) (hc : Complete reply ((bs.map (·.1)).flatten ++ b) a) :
    ∃ s', sslRun reply s ([.announce r, .written n] ++ blocks bs ++ [.received b t]) = .ok (s', [.result a]) ∧
      s'.state = .announced ∧ s'.interval = a.interval ∧ s'.last = t ∧ s'.seeds = a.seed ∧ s'.leeches = a.leech ∧
      s'.peers = a.peers.length % 4294967296 ∧ Linked s' ∧ s'.sent = s.sent ++ r := by
  obtain ⟨s1, h1, h2, h3⟩ := again_asked reply s r n hs
  obtain ⟨s2, h4, h5, h6, -⟩ := blocks_full reply bs [] s1 h2 hb
  obtain ⟨s3, h7, g1, g2, g3, g4, g5, g6, g7, g8⟩ := block_complete reply _ b t s2 h5 hne hl a (by simpa using hc)
  refine ⟨s3, ?_, g1, g2, g3, g4, g5, g6, g7, by rw [g8, h6, h3, List.take_of_length_le hn]⟩
  rw [sslRun_append, sslRun_append, h1, Res.bind_ok, h4, Res.bind_ok, Res.pure_eq, Res.bind_ok, h7]
  rfl

example : Fresh {} := ⟨rfl, rfl, rfl, rfl, rfl⟩
example : ∃ s', sslRun exReply {} (opening [1] 1 ++ blocks [(List.replicate 512 7, 1)] ++ [.received [9] 2]) = .ok (s', [.result exAnswer]) ∧
    Linked s' := by
  obtain ⟨s', h, -, -, -, -, -, -, hl, -⟩ := C89_answer_partial exReply {} ⟨rfl, rfl, rfl, rfl, rfl⟩ [1] 1 (by decide)
    [(List.replicate 512 7, 1)] (by intro x hx; rw [List.mem_singleton.mp hx]; exact List.length_replicate) [9] 2 (by decide) (by decide) exAnswer ⟨4, by decide +kernel, by decide, by decide⟩
  exact ⟨s', h, hl⟩

/-- C89 (partial: the first request): whatever fails on the way, the owner is told once. If no connection was made the next
request begins anew. -/
theorem C89_fail_partial (reply : List UInt8 → Res (Nat × Announce)) (s : Ssl) (hs : Fresh s) (r : List UInt8) :
    (∃ s', sslRun reply s [.announce r, .resolved false] = .ok (s', [.failed]) ∧ s'.state ≠ .announcing ∧ Fresh s') ∧
    (∃ s', sslRun reply s [.announce r, .resolved true, .connected false] = .ok (s', [.failed]) ∧ s'.state ≠ .announcing ∧ Fresh s') ∧
    (∃ s', sslRun reply s [.announce r, .resolved true, .connected true, .shaken false] = .ok (s', [.failed]) ∧ s'.state ≠ .announcing) ∧
    (∃ s', sslRun reply s [.announce r, .resolved true, .connected true, .shaken true, .error] = .ok (s', [.failed]) ∧ s'.state ≠ .announcing) ∧
    (∀ n bs, (∀ x ∈ bs, x.1.length = 512) → ∃ s', sslRun reply s (opening r n ++ blocks bs ++ [.error]) = .ok (s', [.failed]) ∧
      s'.state ≠ .announcing) ∧
    (∀ n bs b t, (∀ x ∈ bs, x.1.length = 512) → b ≠ [] → b.length < 512 → Bad reply ((bs.map (·.1)).flatten ++ b) →
      ∃ s', sslRun reply s (opening r n ++ blocks bs ++ [.received b t]) = .ok (s', [.failed]) ∧ s'.state ≠ .announcing ∧ Linked s') := by
  refine ⟨resolve_failed reply s r hs, connect_failed reply s r hs, ?_, ?_, ?_, ?_⟩
  · obtain ⟨s', h1, h2, -⟩ := shake_failed reply s r hs
    exact ⟨s', h1, h2⟩
  · obtain ⟨s', h1, h2, -⟩ := write_failed reply s r hs
    exact ⟨s', h1, h2⟩
  · intro n bs hb
    obtain ⟨s1, h1, h2, -⟩ := opening_asked reply s r n hs
    obtain ⟨s2, h4, h5, -, -⟩ := blocks_full reply bs [] s1 h2 hb
    obtain ⟨s3, h6, h7, -⟩ := error_asked reply s2 h5.state (.inr h5.task) h5.phase h5.callback
    refine ⟨s3, ?_, h7⟩
    rw [sslRun_append, sslRun_append, h1, Res.bind_ok, h4, Res.bind_ok, Res.pure_eq, Res.bind_ok, h6]
    rfl
  · intro n bs b t hb hne hl hbad
    obtain ⟨s1, h1, h2, -⟩ := opening_asked reply s r n hs
    obtain ⟨s2, h4, h5, -, -⟩ := blocks_full reply bs [] s1 h2 hb
    obtain ⟨s3, h6, h7⟩ := block_bad reply _ b t s2 h5 hne hl (by simpa using hbad)
    refine ⟨s3, ?_, h7⟩
    rw [sslRun_append, sslRun_append, h1, Res.bind_ok, h4, Res.bind_ok, Res.pure_eq, Res.bind_ok, h6]
    rfl

/-- C89 is false for replies of which a part arrives that is shorter than the buffer: reading stops there. If the reply is not complete
the request never ends, even if the rest arrives or the connection ends. -/
theorem C89_short_violated (reply : List UInt8 → Res (Nat × Announce)) (s : Ssl) (hs : Fresh s) (r b : List UInt8) (n t : Nat) (hne : b ≠ [])
    (hl : b.length < 512) (x : Announce) (hi : reply b = .ok (0, x)) (es : List SslEv) (he : ∀ e ∈ es, ∀ r, e ≠ .announce r) :
    ∃ s', sslRun reply s (opening r n ++ [.received b t] ++ es) = .ok (s', []) ∧ s'.state = .announcing := by
  obtain ⟨s1, h1, h2, -⟩ := opening_asked reply s r n hs
  have h3 := block_incomplete reply [] b t s1 h2 hne hl x (by simpa using hi)
  refine ⟨{ s1 with readBuffer := [], task := .none }, ?_, h2.state⟩
  rw [sslRun_append, sslRun_append, h1, Res.bind_ok, h3, Res.bind_ok, Res.pure_eq, Res.bind_ok, stuck reply _ rfl es he]
  rfl

example : exReply [1, 2] = .ok (0, {}) := rfl

/-- C89 is false for replies that fill the buffer exactly: they are complete, but the end of the connection that follows is a failure. -/
theorem C89_multiple_violated (reply : List UInt8 → Res (Nat × Announce)) (s : Ssl) (hs : Fresh s) (r b : List UInt8) (n t : Nat)
    (hl : b.length = 512) (a : Announce) (_hc : Complete reply b a) :
    ∃ s', sslRun reply s (opening r n ++ [.received b t, .error]) = .ok (s', [.failed]) := by
  obtain ⟨s', h, -⟩ := (C89_fail_partial reply s hs r).2.2.2.2.1 n [(b, t)] (by simpa using hl)
  exact ⟨s', by simpa [blocks, List.append_assoc] using h⟩

example : Complete exReply (List.replicate 512 7) exAnswer := ⟨4, by decide +kernel, by decide, by decide⟩

/-- C89 is false once the server has ended the connection, as it was asked to: the next request is written to the dead
connection and fails. The socket is not closed, so that it cannot be connected again; no request is ever answered again. -/
theorem C89_again_violated (reply : List UInt8 → Res (Nat × Announce)) (s : Ssl) (hs : Linked s) (r : List UInt8) (n : Nat) (es : List SslEv) :
    ∃ s', ∃ outs : List Out, sslRun reply s ([.announce r, .written n, .error] ++ es) = .ok (s', outs) ∧ ∀ o ∈ outs, o = .failed := by
  obtain ⟨s1, h1, h2, -⟩ := again_asked reply s r n hs
  obtain ⟨s2, h3, -, h4, h5, h6⟩ := error_asked reply s1 h2.state (.inr h2.task) h2.phase h2.callback
  obtain ⟨a, h7, h8⟩ := dead_run reply es s2 ⟨h6.trans h2.used, by rw [h4]; simp, .inl h5⟩
  refine ⟨a.1, .failed :: a.2, ?_, by simpa using h8⟩
  show sslRun reply s ([.announce r, .written n] ++ [.error] ++ es) = _
  rw [sslRun_append, sslRun_append, h1, Res.bind_ok, h3, Res.bind_ok, Res.pure_eq, Res.bind_ok, h7]
  rfl

/-- C89 is false if the socket takes only a part of the request: the rest is never sent. -/
theorem C89_part_violated (reply : List UInt8 → Res (Nat × Announce)) (s : Ssl) (hs : Fresh s) (r : List UInt8) (n : Nat) (es : List SslEv)
    (he : ∀ e ∈ es, ∀ r, e ≠ .announce r) (a : Ssl × List Out) (h : sslRun reply s (opening r n ++ es) = .ok a) : a.1.sent = s.sent ++ r.take n := by
  obtain ⟨s1, h1, h2, h3⟩ := opening_asked reply s r n hs
  rw [sslRun_append, h1, Res.bind_ok] at h
  cases h4 : sslRun reply s1 es with
  | ok b =>
    rw [h4, Res.bind_ok] at h
    simp only [Res.pure_eq, Res.ok.injEq] at h
    subst h
    exact (sent_same reply es s1 b (.inr h2.task) he h4).trans h3
  | ub => rw [h4] at h; cases h
  | diverge => rw [h4] at h; cases h

/-- C89 is false for trackers at another port than that of HTTPS: the port of the URL is not used. -/
theorem C89_port_violated (host : List UInt8) : target host (ascii "8443") = target host (ascii "443") ∧ target host (ascii "8443") = (host, ascii "https") :=
  ⟨rfl, rfl⟩

end Verif

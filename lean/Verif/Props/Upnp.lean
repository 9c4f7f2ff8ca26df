import Verif.Proof.Upnp
import Verif.Proof.Config
import Verif.Props.Http
/-! C79 and C80: routers are understood, and ports are forwarded as wished. -/

namespace Verif
open Upnp Spec Spec.Upnp Bencode

/-! ### C79: where a router describes itself -/

theorem Upnp.findOf_at {cs pre more : List UInt8} {c : UInt8} (n : Nat) (x : List UInt8) (hx : x.length = n) (h : ∀ b ∈ pre, cs.contains b = false)
    (hc : cs.contains c = true) : findOf cs (x ++ (pre ++ c :: more)) n = some (n + pre.length) := by
  unfold findOf
  rw [← hx, List.drop_left]
  have : (pre ++ c :: more).findIdx? (fun c => cs.contains c) = some pre.length := by
    rw [List.findIdx?_eq_some_iff_getElem]
    refine ⟨by simp, by simpa using hc, ?_⟩
    intro j hj
    rw [List.getElem_append_left hj]
    simpa using h _ (List.getElem_mem hj)
  rw [this]
  simp [Nat.add_comm]

theorem Upnp.findOf_none {cs pre : List UInt8} (n : Nat) (x : List UInt8) (hx : x.length = n) (h : ∀ b ∈ pre, cs.contains b = false) :
    findOf cs (x ++ pre) n = none := by
  unfold findOf
  rw [← hx, List.drop_left]
  have : pre.findIdx? (fun c => cs.contains c) = none := by
    rw [List.findIdx?_eq_none_iff]
    exact h
  rw [this]
  rfl

theorem Upnp.mem_dec {n : Nat} {c : UInt8} (h : c ∈ dec n) : isDigit c = true := dec_digits n c h

/-- Neither `:` nor `/`. -/
def Upnp.Plain (l : List UInt8) : Prop := chr ':' ∉ l ∧ chr '/' ∉ l

theorem Upnp.Plain.none {l : List UInt8} (h : Plain l) : ∀ b ∈ l, (ascii "://").contains b = false := by
  intro b hb
  have h1 : b ≠ chr ':' := fun e => h.1 (e ▸ hb)
  have h2 : b ≠ chr '/' := fun e => h.2 (e ▸ hb)
  have : ascii "://" = [chr ':', chr '/', chr '/'] := by decide
  rw [this]
  simp [h1, h2]

theorem Upnp.substr_ok {l : List UInt8} {a n : Nat} (h : a ≤ l.length) : substr l a n = .ok ((l.drop a).take n) := if_pos h

theorem Upnp.skip {t l : List UInt8} {A : List UInt8} (h : t <:+: l) : t <:+: A ++ l := h.trans (List.suffix_append A l).isInfix

theorem Upnp.inside {t A : List UInt8} {l : List UInt8} (h : t <:+: A) : t <:+: A ++ l := h.trans (List.prefix_append A l).isInfix

theorem Upnp.mid {n : String} {P v S l : List UInt8} (hP : ascii "<" ++ ascii n ++ ascii ">" <:+ P) (hS : ascii "</" ++ ascii n ++ ascii ">" <+: S) :
    field n v <:+: P ++ (v ++ (S ++ l)) := by
  obtain ⟨p, rfl⟩ := hP
  obtain ⟨q, rfl⟩ := hS
  exact ⟨p, q ++ l, by unfold field; simp only [List.append_assoc]⟩

theorem Upnp.not_colon {l : List UInt8} (h : chr ':' ∉ l) : ∀ b ∈ l, (ascii ":").contains b = false := by
  intro b hb
  have h1 : b ≠ chr ':' := fun e => h (e ▸ hb)
  have : ascii ":" = [chr ':'] := by decide
  rw [this]
  simp [h1]

theorem Upnp.not_slash {l : List UInt8} (h : chr '/' ∉ l) : ∀ b ∈ l, (ascii "/").contains b = false := by
  intro b hb
  have h1 : b ≠ chr '/' := fun e => h (e ▸ hb)
  have : ascii "/" = [chr '/'] := by decide
  rw [this]
  simp [h1]

theorem Upnp.dec_plain (n : Nat) : Plain (dec n) := by
  constructor
  · intro h; exact absurd (mem_dec h) (by decide)
  · intro h; exact absurd (mem_dec h) (by decide)

/-- A location is taken apart as it was put together. -/
theorem Upnp.parse_url {protocol address path : List UInt8} {port : Nat} (hp : Plain protocol) (ha : Plain address) (hport : port < 65536)
    (hpath : path = [] ∨ path.head? = some (chr '/')) (hl : (url protocol address port path).length < 18446744073709551616) :
    parseUrl (url protocol address port path) = .ok ⟨protocol, address, some port, path⟩ := by
  have hs : ascii "://" = [chr ':', chr '/', chr '/'] := by decide
  have hc : ascii ":" = [chr ':'] := by decide
  have hu : url protocol address port path = protocol ++ (chr ':' :: chr '/' :: chr '/' :: (address ++ chr ':' :: (dec port ++ path))) := by
    unfold url; rw [hs, hc]; simp
  have hstart : start (url protocol address port path) = (protocol.length + 3, protocol) := by
    unfold start
    have := findOf_at (cs := ascii "://") (pre := protocol) (c := chr ':') (more := chr '/' :: chr '/' :: (address ++ chr ':' :: (dec port ++ path))) 0 [] rfl hp.none (by decide)
    rw [List.nil_append] at this
    rw [hu, this]
    simp
  have hx : url protocol address port path = (protocol ++ [chr ':', chr '/', chr '/']) ++ (address ++ chr ':' :: (dec port ++ path)) := by rw [hu]; simp
  have hxl : (protocol ++ [chr ':', chr '/', chr '/']).length = protocol.length + 3 := by simp
  have h1 : findOf (ascii ":") (url protocol address port path) (protocol.length + 3) = some (protocol.length + 3 + address.length) := by
    rw [hx]
    exact findOf_at _ _ hxl (not_colon ha.1) (by decide)
  have hlen : (url protocol address port path).length = protocol.length + 3 + address.length + 1 + (dec port).length + path.length := by
    rw [hx]; simp; omega
  have hdport : (url protocol address port path).drop (protocol.length + 3 + address.length + 1) = dec port ++ path := by
    have : url protocol address port path = (protocol ++ [chr ':', chr '/', chr '/'] ++ address ++ [chr ':']) ++ (dec port ++ path) := by rw [hu]; simp
    rw [this]
    exact List.drop_left' (by simp; omega)
  have hdaddr : (url protocol address port path).drop (protocol.length + 3) = address ++ chr ':' :: (dec port ++ path) := by
    rw [hx]; exact List.drop_left' hxl
  have hsn : Xml.strtoull (dec port) % 65536 = port := by
    rw [Config.strtoull_dec port (by omega), Nat.mod_eq_of_lt hport]
  rcases hpath with rfl | hpath
  · have h2 : findOf (ascii "/") (url protocol address port []) (protocol.length + 3) = none := by
      rw [hx]
      refine findOf_none _ _ hxl ?_
      intro b hb
      apply not_slash (l := address ++ chr ':' :: (dec port ++ [])) _ b hb
      simp only [List.append_nil, List.mem_append, List.mem_cons]
      rintro (h | h | h)
      · exact ha.2 h
      · exact absurd h (by decide)
      · exact (dec_plain port).2 h
    unfold parseUrl
    simp only [hstart, h1, h2]
    simp only [addressOf, portOf]
    rw [substr_ok (by rw [hlen]; omega), substr_ok (by rw [hlen]; omega), hdport, hdaddr]
    simp only [Res.bind_ok, List.append_nil]
    rw [List.take_of_length_le (l := dec port) (by rw [hlen]; omega), show protocol.length + 3 + address.length - (protocol.length + 3) = address.length by omega,
      List.take_left' rfl]
    simp only [Res.pure_eq, Res.bind_ok, hsn]
  · obtain ⟨rest, rfl⟩ : ∃ rest, path = chr '/' :: rest := by
      cases path with
      | nil => cases hpath
      | cons a b => simp at hpath; subst hpath; exact ⟨b, rfl⟩
    have h2 : findOf (ascii "/") (url protocol address port (chr '/' :: rest)) (protocol.length + 3) =
        some (protocol.length + 3 + (address.length + 1 + (dec port).length)) := by
      have : url protocol address port (chr '/' :: rest) =
          (protocol ++ [chr ':', chr '/', chr '/']) ++ ((address ++ chr ':' :: dec port) ++ chr '/' :: rest) := by rw [hx]; simp
      rw [this]
      rw [findOf_at (cs := ascii "/") (pre := address ++ chr ':' :: dec port) (more := rest) _ _ hxl]
      · simp; omega
      · intro b hb
        apply not_slash (l := address ++ chr ':' :: dec port) _ b hb
        simp only [List.mem_append, List.mem_cons]
        rintro (h | h | h)
        · exact ha.2 h
        · exact absurd h (by decide)
        · exact (dec_plain port).2 h
      · decide
    have hdpath : (url protocol address port (chr '/' :: rest)).drop (protocol.length + 3 + (address.length + 1 + (dec port).length)) = chr '/' :: rest := by
      rw [show protocol.length + 3 + (address.length + 1 + (dec port).length) = protocol.length + 3 + address.length + 1 + (dec port).length by omega,
        ← List.drop_drop, hdport]
      exact List.drop_left' rfl
    have hmin : min (protocol.length + 3 + address.length) (protocol.length + 3 + (address.length + 1 + (dec port).length)) - (protocol.length + 3) = address.length := by
      omega
    have hminus : minus (protocol.length + 3 + (address.length + 1 + (dec port).length)) (protocol.length + 3 + address.length + 1) = (dec port).length := by
      unfold minus
      rw [hlen] at hl
      simp only [List.length_cons] at hl
      omega
    unfold parseUrl
    simp only [hstart, h1, h2]
    simp only [addressOf, portOf]
    rw [hminus, hmin, substr_ok (by rw [hlen]; omega), substr_ok (by rw [hlen]; omega), hdport, hdaddr, hdpath]
    rw [List.take_left' rfl, List.take_left' rfl]
    simp only [Res.pure_eq, Res.bind_ok, hsn]

theorem Upnp.locations_skip {g c : List UInt8} : (ps rest : List (List UInt8 × List UInt8)) → (∀ p ∈ ps, p.1 ≠ ascii "LOCATION") →
    locations g c (ps ++ rest) = locations g c rest
  | [], _, _ => rfl
  | p :: ps, rest, h => by
    rw [List.cons_append, locations, if_neg (h p (by simp))]
    simp only [Res.pure_eq, Res.bind_ok]
    rw [locations_skip ps rest fun q hq => h q (by simp [hq])]
    cases locations g c rest <;> rfl

theorem Upnp.capitals_append (a b : List UInt8) : capitals (a ++ b) = capitals a ++ capitals b := List.map_append

theorem Upnp.capital_other {c : UInt8} (h : ¬ (chr 'a' ≤ c ∧ c ≤ chr 'z')) : capital c = c := if_neg h

theorem Upnp.capitals_dec (n : Nat) : capitals (dec n) = dec n := by
  unfold capitals
  rw [List.map_congr_left (g := id), List.map_id]
  have h : ∀ c : UInt8, isDigit c = true → capital c = id c := by
    apply forall_u8
    decide +kernel
  exact fun c hc => h c (mem_dec hc)

theorem Upnp.capital_plain : ∀ c : UInt8, (capital c = chr ':' → c = chr ':') ∧ (capital c = chr '/' → c = chr '/') := by
  apply forall_u8
  decide +kernel

theorem Upnp.Plain.capitals {l : List UInt8} (h : Plain l) : Plain (capitals l) := by
  constructor
  · intro hm
    obtain ⟨c, hc, he⟩ := List.mem_map.mp hm
    exact h.1 ((capital_plain c).1 he ▸ hc)
  · intro hm
    obtain ⟨c, hc, he⟩ := List.mem_map.mp hm
    exact h.2 ((capital_plain c).2 he ▸ hc)

theorem Upnp.capitals_url (protocol address : List UInt8) (port : Nat) (path : List UInt8) :
    capitals (url protocol address port path) = url (capitals protocol) (capitals address) port (capitals path) := by
  unfold url
  simp only [capitals_append, capitals_dec]
  have h1 : capitals (ascii "://") = ascii "://" := by decide
  have h2 : capitals (ascii ":") = ascii ":" := by decide
  rw [h1, h2]

/-- C79: the answer of a router to the search is understood: the description is looked for at the port and the path it names,
if the address is that of the gateway; an answer without success names nothing.  Missing: paths with small letters
(`C79_path_violated`), locations without a port or in other forms (`C79_location_violated`). -/
theorem C79_location_partial {status : List UInt8} {before after' : List (List UInt8 × List UInt8)} {name protocol address path : List UInt8} {port : Nat}
    (hh : GoodHeader status (before ++ (name, url protocol address port path) :: after'))
    (hname : capitals name = ascii "LOCATION")
    (ho : ∀ f ∈ before ++ after', ¬named f "LOCATION" ∧ ¬named f "CONTENT-LENGTH" ∧ ¬named f "TRANSFER-ENCODING")
    (hpr : Plain protocol) (ha : Plain address) (ha0 : address ≠ []) (hac : capitals address = address) (hport : 0 < port ∧ port < 65536)
    (hpath : path = [] ∨ path.head? = some (chr '/')) (hcap : capitals path = path)
    (gateway clientIp after : List UInt8)
    (hl : (header status (before ++ (name, url protocol address port path) :: after')).length < 4294967296)
    (n : Nat) (hn : before.length + after'.length + 3 ≤ n) :
    (says200 status → onDatagram n gateway clientIp (header status (before ++ (name, url protocol address port path) :: after')) after =
      .ok (if gateway = address then [⟨gateway, clientIp, port, path⟩] else [])) ∧
    (¬ says200 status → onDatagram n gateway clientIp (header status (before ++ (name, url protocol address port path) :: after')) after = .ok []) := by
  obtain ⟨i, hi, hps, -, -, -, hsucc⟩ := C43_no_length hh (by
    intro f hf
    simp only [List.mem_append, List.mem_cons] at hf
    rcases hf with hf | rfl | hf
    · exact (ho f (by simp [hf])).2
    · unfold named; simp only [hname]; decide +kernel
    · exact (ho f (by simp [hf])).2) [] after (by simpa using hl) n (by simp; omega)
  rw [List.append_nil] at hi
  have hne : header status (before ++ (name, url protocol address port path) :: after') ≠ [] := by
    intro h0
    have := congrArg List.length h0
    simp [header, crlf] at this
  have hst : capitals status ≠ ascii "LOCATION" := by
    intro h
    have h4 := congrArg (List.take 4) h
    unfold capitals at h4
    rw [← List.map_take, hh.http] at h4
    exact absurd h4 (by decide +kernel)
  have hul : (url protocol address port path).length < 18446744073709551616 := by
    have : (url protocol address port path).length ≤ (header status (before ++ (name, url protocol address port path) :: after')).length := by
      simp only [header, List.flatMap_append, List.flatMap_cons, List.length_append]
      omega
    omega
  have hloc : locations gateway clientIp i.params = .ok (if gateway = address then [⟨gateway, clientIp, port, path⟩] else []) := by
    rw [hps, List.map_append, List.map_cons]
    rw [show (capitals status, ([] : List UInt8)) :: (before.map (fun f => (capitals f.1, capitals f.2)) ++
        (capitals name, capitals (url protocol address port path)) :: after'.map fun f => (capitals f.1, capitals f.2)) =
      ((capitals status, []) :: before.map (fun f => (capitals f.1, capitals f.2))) ++
        (capitals name, capitals (url protocol address port path)) :: after'.map fun f => (capitals f.1, capitals f.2) from rfl]
    rw [locations_skip]
    · rw [locations, if_pos hname]
      have hrest : locations gateway clientIp (after'.map fun f => (capitals f.1, capitals f.2)) = .ok [] := by
        have := locations_skip (g := gateway) (c := clientIp) (after'.map fun f => (capitals f.1, capitals f.2)) [] (by
          intro p hp
          obtain ⟨f, hf, rfl⟩ := List.mem_map.mp hp
          exact (ho f (by simp [hf])).1)
        rw [List.append_nil] at this
        rw [this]
        rfl
      rw [hrest]
      unfold location
      simp only
      rw [capitals_url, hac, hcap, parse_url hpr.capitals ha hport.2 hpath (by
        have : (url (capitals protocol) address port path).length = (url protocol address port path).length := by
          simp [url, capitals]
        omega)]
      simp only [Res.bind_ok, if_neg ha0, Res.pure_eq, List.append_nil]
      have : (port ≠ 0 ∧ gateway = address) ↔ gateway = address := ⟨And.right, fun h => ⟨by omega, h⟩⟩
      simp only [this]
    · intro p hp
      simp only [List.mem_cons, List.mem_map] at hp
      rcases hp with rfl | ⟨f, hf, rfl⟩
      · exact hst
      · exact (ho f (by simp [hf])).1
  unfold onDatagram
  rw [if_neg hne, hi]
  simp only [Res.bind_ok]
  constructor
  · intro h
    rw [if_pos (hsucc.mpr h)]
    exact hloc
  · intro h
    rw [if_neg (fun h' => h (hsucc.mp h'))]
    rfl

/-- C79: the description is asked for from where the location says. -/
theorem C79_fetch (l : Location) : ∃ fields, rootRequest l = header (ascii "GET " ++ l.path ++ ascii " HTTP/1.1") fields ∧
    (ascii "Host", l.gateway ++ ascii ":" ++ dec l.port) ∈ fields := by
  refine ⟨[(ascii "User-Agent", ascii "mtTorrent"), (ascii "Connection", ascii "close"), (ascii "Host", l.gateway ++ ascii ":" ++ dec l.port),
    (ascii "Accept", ascii "text/xml")], ?_, by simp⟩
  have h1 : ascii " HTTP/1.1\r\nUser-Agent: mtTorrent\r\nConnection: close\r\nHost: " =
      ascii " HTTP/1.1" ++ crlf ++ (ascii "User-Agent" ++ ascii ": " ++ ascii "mtTorrent" ++ crlf) ++
        (ascii "Connection" ++ ascii ": " ++ ascii "close" ++ crlf) ++ ascii "Host" ++ ascii ": " := by decide +kernel
  have h2 : ascii "\r\nAccept: text/xml\r\n\r\n" = crlf ++ (ascii "Accept" ++ ascii ": " ++ ascii "text/xml" ++ crlf) ++ crlf := by decide +kernel
  unfold rootRequest header
  rw [h1, h2]
  simp only [List.flatMap_cons, List.flatMap_nil, List.append_assoc, List.append_nil]

/-- C79: requests go to the control URL that the description has for the service, at the address and port of the router. -/
theorem C79_request (ds : List Device) (d : Device) (hd : ds.find? (fun e => e.gateway = d.gateway) = some d)
    (u : List UInt8) (hu : getService d.services (ascii "urn:schemas-upnp-org:service:WANIPConnection:1") = u) (hu0 : u ≠ []) :
    (∀ w, ∃ fields body, (mapRequest ds d w).data = header (ascii "POST " ++ u ++ ascii " HTTP/1.1") fields ++ body ∧
      (ascii "Host", d.gateway ++ ascii ":" ++ dec d.port) ∈ fields ∧ (ascii "Content-Length", dec body.length) ∈ fields ∧
      (ascii "SOAPAction", ascii "\"urn:schemas-upnp-org:service:WANIPConnection:1#AddPortMapping\"") ∈ fields ∧
      field "NewExternalPort" (dec w.1) <:+: body ∧ field "NewInternalPort" (dec w.1) <:+: body ∧
      field "NewProtocol" (match w.2 with | .tcp => ascii "TCP" | .udp => ascii "UDP") <:+: body ∧ field "NewInternalClient" d.clientIp <:+: body ∧
      field "NewEnabled" (ascii "1") <:+: body ∧ field "NewLeaseDuration" (ascii "0") <:+: body) ∧
    (∀ m, ∃ fields body, (unmapRequest ds d m).data = header (ascii "POST " ++ u ++ ascii " HTTP/1.1") fields ++ body ∧
      (ascii "Host", d.gateway ++ ascii ":" ++ dec d.port) ∈ fields ∧ (ascii "Content-Length", dec body.length) ∈ fields ∧
      (ascii "SOAPAction", ascii "\"urn:schemas-upnp-org:service:WANIPConnection:1#DeletePortMapping\"") ∈ fields ∧
      field "NewExternalPort" (dec m.port) <:+: body ∧
      field "NewProtocol" (match m.type with | .tcp => ascii "TCP" | .udp => ascii "UDP") <:+: body) := by
  have hc : controlUrl ds d.gateway = u := by
    unfold controlUrl
    rw [hd]
    exact hu
  have hh : ∀ len action, httpHeader ds d.gateway d.port len action = header (ascii "POST " ++ u ++ ascii " HTTP/1.1")
      [(ascii "SOAPAction", ascii "\"" ++ action ++ ascii "\""), (ascii "Content-Type", ascii "text/xml; charset=\"utf-8\""),
       (ascii "User-Agent", ascii "mtTorrent (UPnP/1.0)"), (ascii "Host", d.gateway ++ ascii ":" ++ dec d.port),
       (ascii "Accept", ascii "text/html, image/gif, image/jpeg, *; q=.2, */*; q=.2"), (ascii "Connection", ascii "keep-alive"),
       (ascii "Content-Length", dec len)] := by
    intro len action
    have h1 : ascii " HTTP/1.1\r\nSOAPAction: \"" = ascii " HTTP/1.1" ++ crlf ++ ascii "SOAPAction" ++ ascii ": " ++ ascii "\"" := by decide +kernel
    have h2 : ascii "\"\r\nContent-Type: text/xml; charset=\"utf-8\"\r\nUser-Agent: mtTorrent (UPnP/1.0)\r\nHost: " =
      ascii "\"" ++ crlf ++ (ascii "Content-Type" ++ ascii ": " ++ ascii "text/xml; charset=\"utf-8\"" ++ crlf) ++
        (ascii "User-Agent" ++ ascii ": " ++ ascii "mtTorrent (UPnP/1.0)" ++ crlf) ++ ascii "Host" ++ ascii ": " := by decide +kernel
    have h3 : ascii "\r\nAccept: text/html, image/gif, image/jpeg, *; q=.2, */*; q=.2\r\nConnection: keep-alive\r\nContent-Length: " =
      crlf ++ (ascii "Accept" ++ ascii ": " ++ ascii "text/html, image/gif, image/jpeg, *; q=.2, */*; q=.2" ++ crlf) ++
        (ascii "Connection" ++ ascii ": " ++ ascii "keep-alive" ++ crlf) ++ ascii "Content-Length" ++ ascii ": " := by decide +kernel
    have h4 : ascii "\r\n\r\n" = crlf ++ crlf := by decide
    unfold httpHeader header
    simp only [hc, if_neg hu0]
    rw [h1, h2, h3, h4]
    simp only [List.flatMap_cons, List.flatMap_nil, List.append_assoc, List.append_nil]
  have ha1 : ascii "\"" ++ (serviceName ++ ascii "#AddPortMapping") ++ ascii "\"" =
      ascii "\"urn:schemas-upnp-org:service:WANIPConnection:1#AddPortMapping\"" := by decide +kernel
  have ha2 : ascii "\"" ++ (serviceName ++ ascii "#DeletePortMapping") ++ ascii "\"" =
      ascii "\"urn:schemas-upnp-org:service:WANIPConnection:1#DeletePortMapping\"" := by decide +kernel
  have hpn : ∀ t, protoName t = match t with | .tcp => ascii "TCP" | .udp => ascii "UDP" := by intro t; cases t <;> rfl
  constructor
  · intro w
    refine ⟨_, addBody d.clientIp w.1 w.2, by unfold mapRequest; simp only [hh]; rfl, by simp, by simp, ?_, ?_, ?_, ?_, ?_, ?_, ?_⟩
    · rw [ha1]; simp
    all_goals
      rw [addBody]
      try rw [← hpn]
      simp only [List.append_assoc]
    · exact skip (skip (mid (by decide +kernel) (by decide +kernel)))
    · exact skip (skip (skip (skip (skip (skip (mid (by decide +kernel) (by decide +kernel)))))))
    · exact skip (skip (skip (skip (mid (by decide +kernel) (by decide +kernel)))))
    · exact skip (skip (skip (skip (skip (skip (skip (skip (mid (by decide +kernel) (by decide +kernel)))))))))
    · exact skip (skip (skip (skip (skip (skip (skip (skip (skip (skip (inside (by decide +kernel)))))))))))
    · exact skip (skip (skip (skip (skip (skip (skip (skip (skip (skip (skip (skip (skip (skip (by decide +kernel))))))))))))))
  · intro m
    refine ⟨_, deleteBody m.port m.type, by unfold unmapRequest; simp only [hh]; rfl, by simp, by simp, ?_, ?_, ?_⟩
    · rw [ha2]; simp
    all_goals
      rw [deleteBody]
      try rw [← hpn]
      simp only [List.append_assoc]
    · have := mid (n := "NewExternalPort") (P := ascii "</NewProtocol>\n<NewExternalPort>") (v := dec m.port)
        (S := ascii "</NewExternalPort>\n</u:DeletePortMapping>\n</s:Body>\n</s:Envelope>\r\n") (l := []) (by decide +kernel) (by decide +kernel)
      rw [List.append_nil] at this
      exact skip (skip (skip (skip this)))
    · exact skip (skip (mid (by decide +kernel) (by decide +kernel)))

/-! ### C80: what is forwarded -/

/-- C80: what the program takes to be forwarded is what the router forwards, whatever happens; requests under way ask for what is not
so yet.  Missing: more than one router (`C80_routers_violated`). -/
theorem C80_known_partial (g : List UInt8) (es : List Event) (h : OneRouter g es) :
    (∀ x, x ∈ (run es).table ↔ ∃ m ∈ (run es).sys.mapped, (m.gateway, m.port, m.type) = x) ∧
    (∀ x ∈ (run es).table, x.1 = g) ∧
    (∀ r ∈ (run es).sys.pending, r.gateway = g ∧
      (r.answered = false → (r.add = true ↔ ¬ (run es).forwards g (r.port, r.type)))) := by
  have hi := run_inv h
  refine ⟨?_, fun x hx => ((hi.table x).mp hx).1, ?_⟩
  · intro x
    rw [hi.table]
    constructor
    · rintro ⟨h1, h2⟩
      obtain ⟨m, hm, hk⟩ := List.mem_map.mp h2
      refine ⟨m, hm, ?_⟩
      obtain ⟨a, b, c⟩ := x
      simp only [key, Prod.mk.injEq] at h1 hk ⊢
      exact ⟨(hi.mapped m hm).trans h1.symm, hk.1, hk.2⟩
    · rintro ⟨m, hm, rfl⟩
      exact ⟨hi.mapped m hm, List.mem_map.mpr ⟨m, hm, rfl⟩⟩
  · intro r hr
    refine ⟨hi.pending r hr, fun ha => ?_⟩
    unfold World.forwards
    rw [hi.table]
    simp only [true_and]
    constructor
    · exact hi.adds r hr ha
    · intro hn
      by_contra hadd
      exact hn (hi.dels r hr ha (by simpa using hadd))

theorem Upnp.asked_refresh {g : List UInt8} {s : Sys} (hd : ∀ d ∈ s.devices, d.gateway = g) (hm : ∀ m ∈ s.mapped, m.gateway = g)
    (hp : ∀ r ∈ s.pending, r.gateway = g) :
    ∃ new, (refresh s).pending = s.pending ++ new ∧ (refresh s).wishes = s.wishes ∧ (refresh s).mapped = s.mapped ∧ ∀ r ∈ new, r.answered = false ∧
      (r.add = true → rkey r ∈ s.wishes ∧ rkey r ∉ s.mapped.map key) ∧ (r.add = false → rkey r ∉ s.wishes ∧ rkey r ∈ s.mapped.map key) := by
  by_cases h : s.pending = []
  · rw [refresh_idle hd h]
    exact ⟨fresh s, by simp [h], rfl, rfl, fun r hr => (fresh_spec hd hm).2.1 r hr |>.2⟩
  · rw [refresh_busy hd hp h]
    exact ⟨[], by simp, rfl, rfl, by simp⟩

theorem Upnp.answer_keeps (s : Sys) (i : Nat) (b : Bool) : (answer s i b).wishes = s.wishes ∧ (answer s i b).pending.length = s.pending.length := by
  unfold answer
  split
  · exact ⟨rfl, rfl⟩
  · exact ⟨rfl, by simp⟩

/-- C80: only what is wished and not forwarded is asked for, and only what is forwarded and not wished is asked to end; whatever
happens next.  Missing: more than one router (`C80_routers_violated`). -/
theorem C80_asked_partial (g : List UInt8) (es : List Event) (e : Event) (h : OneRouter g (es ++ [e])) :
    ∃ old new, (run (es ++ [e])).sys.pending = old ++ new ∧ old.length ≤ (run es).sys.pending.length ∧
      ∀ r ∈ new, (r.add = true → (r.port, r.type) ∈ (run (es ++ [e])).sys.wishes ∧ ¬ (run (es ++ [e])).forwards g (r.port, r.type)) ∧
        (r.add = false → (r.port, r.type) ∉ (run (es ++ [e])).sys.wishes ∧ (run (es ++ [e])).forwards g (r.port, r.type)) := by
  have hi : Inv g (run es) := run_inv fun d hd => h d (by simp [hd])
  have hi' := run_inv h
  have hr : run (es ++ [e]) = (run es).step e := by simp [run]
  rw [hr] at hi' ⊢
  have key : ∀ (s : Sys) (t : List (List UInt8 × Nat × Proto)), (∀ d ∈ s.devices, d.gateway = g) → (∀ m ∈ s.mapped, m.gateway = g) → (∀ r ∈ s.pending, r.gateway = g) →
      s.pending.length ≤ (run es).sys.pending.length → (run es).step e = ⟨refresh s, t⟩ →
      ∃ old new, ((run es).step e).sys.pending = old ++ new ∧ old.length ≤ (run es).sys.pending.length ∧
      ∀ r ∈ new, (r.add = true → (r.port, r.type) ∈ ((run es).step e).sys.wishes ∧ ¬ ((run es).step e).forwards g (r.port, r.type)) ∧
        (r.add = false → (r.port, r.type) ∉ ((run es).step e).sys.wishes ∧ ((run es).step e).forwards g (r.port, r.type)) := by
    intro s t hd hm hp hl he
    rw [he] at hi' ⊢
    obtain ⟨new, h1, h2, h3, h4⟩ := asked_refresh hd hm hp
    refine ⟨s.pending, new, h1, hl, fun r hr => ?_⟩
    unfold World.forwards
    rw [hi'.table]
    simp only [true_and, h2, h3]
    exact (h4 r hr).2
  have same : ((run es).step e).sys.pending.length ≤ (run es).sys.pending.length → ∃ old new, ((run es).step e).sys.pending = old ++ new ∧ old.length ≤ (run es).sys.pending.length ∧
      ∀ r ∈ new, (r.add = true → (r.port, r.type) ∈ ((run es).step e).sys.wishes ∧ ¬ ((run es).step e).forwards g (r.port, r.type)) ∧
        (r.add = false → (r.port, r.type) ∉ ((run es).step e).sys.wishes ∧ ((run es).step e).forwards g (r.port, r.type)) :=
    fun hl => ⟨_, [], by simp, hl, by simp⟩
  cases e with
  | map x =>
    by_cases hx : x ∈ (run es).sys.wishes
    · exact same (by simp [World.step, mapPort, hx])
    · exact key { (run es).sys with wishes := (run es).sys.wishes ++ [x] } (run es).table hi.devices hi.mapped hi.pending (Nat.le_refl _)
        (by simp [World.step, mapPort, hx])
  | unmap x => exact key { (run es).sys with wishes := (run es).sys.wishes.erase x } (run es).table hi.devices hi.mapped hi.pending (Nat.le_refl _) rfl
  | unmapAll => exact key { (run es).sys with wishes := [] } (run es).table hi.devices hi.mapped hi.pending (Nat.le_refl _) rfl
  | found d =>
    by_cases hx : ((run es).sys.devices.any fun e => e.clientIp = d.clientIp ∧ e.gateway = d.gateway ∧ e.port = d.port) = true
    · exact same (by simp only [World.step, Upnp.found]; rw [if_pos hx])
    · refine key { (run es).sys with devices := (run es).sys.devices ++ [d] } (run es).table ?_ hi.mapped hi.pending (Nat.le_refl _)
        (by simp only [World.step, Upnp.found]; rw [if_neg hx])
      intro e he
      rcases List.mem_append.mp he with h' | h'
      · exact hi.devices e h'
      · simp only [List.mem_singleton] at h'; subst h'; exact h e (by simp)
  | granted i =>
    apply same
    rw [(granted_aim hi i).2.2.1]
  | refused i =>
    apply same
    simp only [World.step]
    split
    · split
      · exact Nat.le_refl _
      · simp only [(answer_keeps _ _ _).2]; exact Nat.le_refl _
    · exact Nat.le_refl _
  | closed i =>
    by_cases hx : i < (run es).sys.pending.length
    · exact key { (run es).sys with pending := (run es).sys.pending.eraseIdx i } (run es).table hi.devices hi.mapped
        (fun r hr => hi.pending r (List.mem_of_mem_eraseIdx hr)) (by simp only [List.length_eraseIdx]; split <;> omega)
        (by simp only [World.step]; rw [if_pos hx]; rfl)
    · exact same (by simp only [World.step]; rw [if_neg hx])

/-- C80: whatever happened before, once the wishes stay as they are and requests are granted and their connections end, in any order, the router
forwards exactly what is wished, and nothing more is asked for.  Missing: more than one router (`C80_routers_violated`), refused
requests (`C80_refused_violated`), connections that stay open (`C80_waiting_violated`). -/
theorem C80_settles_partial (g : List UInt8) (es : List Event) (h : OneRouter g es) (hd : (run es).sys.devices ≠ []) (is : List Nat)
    (hl : (run es).sys.wishes.length + (run es).sys.mapped.length + 3 ≤ is.length) :
    (is.foldl World.finish (run es)).sys.pending = [] ∧ (is.foldl World.finish (run es)).sys.wishes = (run es).sys.wishes ∧
      ∀ x, (is.foldl World.finish (run es)).forwards g x ↔ x ∈ (run es).sys.wishes := by
  have hi := run_inv h
  have hp := finishes is _ hi ((rest_le hi).trans hl)
  have hi' := finishes_inv is _ hi
  obtain ⟨k1, k2⟩ := finishes_keep is (run es)
  refine ⟨hp, k1, fun x => ?_⟩
  unfold World.forwards
  rw [hi'.table]
  rcases hi'.settled hp with h0 | h0
  · exact absurd (k2 ▸ h0) hd
  · rw [h0 x, k1]
    simp

/-- C80: ports that were asked for are wished until they are taken back; a port is wished once. -/
theorem C80_wishes (es : List Event) (x : Nat × Proto) :
    x ∈ (run (es ++ [.map x])).sys.wishes ∧
    (∀ y, y ≠ x → (y ∈ (run (es ++ [.map x])).sys.wishes ↔ y ∈ (run es).sys.wishes)) ∧
    (∀ y, y ∈ (run (es ++ [.unmap x])).sys.wishes ↔ y ∈ (run es).sys.wishes ∧ y ≠ x) ∧ (run (es ++ [.unmapAll])).sys.wishes = [] ∧
    (∀ e, (∀ y, e ≠ .map y) → (∀ y, e ≠ .unmap y) → e ≠ .unmapAll → (run (es ++ [e])).sys.wishes = (run es).sys.wishes) := by
  have hr : ∀ e, run (es ++ [e]) = (run es).step e := by simp [run]
  have hnd : ∀ es, (run es).sys.wishes.Nodup := by
    intro es
    unfold run
    have : ∀ (es : List Event) (w : World), w.sys.wishes.Nodup → (es.foldl World.step w).sys.wishes.Nodup := by
      intro es
      induction es with
      | nil => exact fun _ h => h
      | cons e es ih =>
        intro w h
        apply ih
        cases e with
        | map x =>
          simp only [World.step, mapPort]
          split
          · exact h
          · rename_i hx
            show (w.sys.wishes ++ [x]).Nodup
            rw [List.nodup_append]
            exact ⟨h, by simp, fun a ha b hb => by simp at hb; subst hb; rintro rfl; exact hx ha⟩
        | unmap x => exact h.erase x
        | unmapAll => exact List.nodup_nil
        | found d => simp only [World.step, Upnp.found]; split <;> exact h
        | granted i => simp only [World.step]; split <;> (try split) <;> (try simp only [(answer_keeps _ _ _).1]) <;> exact h
        | refused i => simp only [World.step]; split <;> (try split) <;> (try simp only [(answer_keeps _ _ _).1]) <;> exact h
        | closed i => simp only [World.step, Upnp.closed]; split <;> exact h
    exact this es {} List.nodup_nil
  simp only [hr]
  refine ⟨?_, ?_, ?_, rfl, ?_⟩
  · simp only [World.step, mapPort]
    split
    · assumption
    · show x ∈ (run es).sys.wishes ++ [x]; simp
  · intro y hy
    simp only [World.step, mapPort]
    split
    · rfl
    · show y ∈ (run es).sys.wishes ++ [x] ↔ _; simp [hy]
  · intro y
    show y ∈ (run es).sys.wishes.erase x ↔ _
    rw [(hnd es).mem_erase_iff]
    tauto
  · intro e h1 h2 h3
    cases e with
    | map y => exact absurd rfl (h1 y)
    | unmap y => exact absurd rfl (h2 y)
    | unmapAll => exact absurd rfl h3
    | found d => simp only [World.step, Upnp.found]; split <;> rfl
    | granted i => simp only [World.step]; split <;> (try split) <;> (try simp only [(answer_keeps _ _ _).1])
    | refused i => simp only [World.step]; split <;> (try split) <;> (try simp only [(answer_keeps _ _ _).1])
    | closed i => simp only [World.step, Upnp.closed]; split <;> rfl

namespace UpnpEx

def routerA : Device :=
  { gateway := ascii "10.0.0.1", clientIp := ascii "10.0.0.2", port := 5000
    services := [(ascii "urn:schemas-upnp-org:service:WANIPConnection:1", ascii "/ctl")] }
def routerB : Device :=
  { gateway := ascii "10.1.0.1", clientIp := ascii "10.1.0.2", port := 5000
    services := [(ascii "urn:schemas-upnp-org:service:WANIPConnection:1", ascii "/ctl")] }

/-- Two ports are asked for, of one router, and then all taken back. -/
def one : List Event := [.map (6881, .tcp), .map (6881, .udp), .found routerA]

def both : World := [0, 0, 0].foldl World.finish (run [.found routerA, .found routerB, .map (6881, .tcp)])

end UpnpEx
open UpnpEx

example : OneRouter (ascii "10.0.0.1") one ∧ (run one).sys.devices ≠ [] ∧ (run one).table = [] ∧
    ([0, 0].foldl World.finish (run one)).table = [(ascii "10.0.0.1", 6881, .tcp), (ascii "10.0.0.1", 6881, .udp)] ∧
    ([0, 0].foldl World.finish (run one)).sys.pending = [] := by
  refine ⟨?_, ?_, ?_, ?_, ?_⟩
  · intro d hd
    simp [one] at hd
    subst hd; rfl
  all_goals decide +kernel

/-- C80 fails with two routers: what one of them forwards is taken for a surplus of the other.  After every request was granted there
are more of them, without end, and the one port that is wished is forwarded by none of them again and again. -/
theorem C80_routers_violated :
    (∀ n, ((World.finish · 0)^[n] (run [.found routerA, .found routerB, .map (6881, .tcp)])).sys.pending ≠ []) ∧
    (∀ n, ((World.finish · 0)^[6 * n] (run [.found routerA, .found routerB, .map (6881, .tcp)])).table = []) := by
  generalize hw : run [.found routerA, .found routerB, .map (6881, .tcp)] = w
  have h6 : (World.finish · 0)^[6] w = w := by subst hw; decide +kernel
  have hall : ∀ k < 6, ((World.finish · 0)^[k] w).sys.pending ≠ [] := by subst hw; decide +kernel
  have hm : ∀ m, (World.finish · 0)^[6 * m] w = w := by
    intro m
    induction m with
    | zero => rfl
    | succ m ih => rw [Nat.mul_succ, Function.iterate_add_apply, h6, ih]
  refine ⟨fun n => ?_, fun n => ?_⟩
  · rw [← Nat.mod_add_div n 6, Function.iterate_add_apply, hm]
    exact hall _ (Nat.mod_lt _ (by decide))
  · rw [hm, ← hw]
    decide +kernel

/-- C80 fails with a router that refuses: the same request is sent again at once, without end. -/
theorem C80_refused_violated :
    (run [.found routerA, .map (6881, .tcp)]).sys.pending ≠ [] ∧
    ((run [.found routerA, .map (6881, .tcp)]).step (.refused 0)).step (.closed 0) = run [.found routerA, .map (6881, .tcp)] := by
  decide +kernel

/-- C80 fails with connections that stay open, which is what the requests ask for: the second port is forwarded, and nothing
under way will change it. -/
theorem C80_waiting_violated :
    (run (one ++ [.granted 0, .closed 0, .granted 0, .closed 0, .unmapAll, .granted 0])).sys.wishes = [] ∧
    (run (one ++ [.granted 0, .closed 0, .granted 0, .closed 0, .unmapAll, .granted 0])).forwards (ascii "10.0.0.1") (6881, .udp) ∧
    ∀ r ∈ (run (one ++ [.granted 0, .closed 0, .granted 0, .closed 0, .unmapAll, .granted 0])).sys.pending, r.answered = true := by
  unfold World.forwards
  decide +kernel

/-! ### C79: where it fails -/

namespace UpnpEx

def answerTo (location : String) : List UInt8 := ascii "HTTP/1.1 200 OK\r\nST: upnp:rootdevice\r\nLOCATION: " ++ ascii location ++ ascii "\r\n\r\n"

def description (type url : String) : List UInt8 :=
  ascii "<?xml version=\"1.0\"?>\n<root xmlns=\"urn:schemas-upnp-org:device-1-0\">\n<specVersion><major>1</major></specVersion>\n<device>\n<friendlyName>Box</friendlyName>\n<iconList/>\n<deviceList><device><deviceList><device><serviceList>\n<service><serviceType>" ++
  ascii type ++ ascii "</serviceType><controlURL>" ++ ascii url ++ ascii "</controlURL></service>\n</serviceList></device></deviceList></device></deviceList></device></root>"

def reply (length : Nat) (body : List UInt8) : List UInt8 := ascii "HTTP/1.1 200 OK\r\nContent-Length: " ++ dec length ++ ascii "\r\n\r\n" ++ body

def blank : Device := { gateway := ascii "10.0.0.1", clientIp := ascii "10.0.0.2", port := 5000 }

end UpnpEx

example : onDatagram 10 (ascii "10.0.0.1") (ascii "10.0.0.2") (answerTo "http://10.0.0.1:5000/D.XML") [] =
    .ok [⟨ascii "10.0.0.1", ascii "10.0.0.2", 5000, ascii "/D.XML"⟩] := by decide +kernel

example : (onReceive 10 (reply (description "urn:schemas-upnp-org:service:WANIPConnection:1" "/ctl").length
      (description "urn:schemas-upnp-org:service:WANIPConnection:1" "/ctl")) [] blank).bind (fun r => .ok r.1) =
    .ok (some { blank with name := ascii "Box", services := [(ascii "urn:schemas-upnp-org:service:WANIPConnection:1", ascii "/ctl")] }) := by
  decide +kernel

/-- C79 fails: the path is put in capitals. -/
theorem C79_path_violated : (onDatagram 10 (ascii "10.0.0.1") (ascii "10.0.0.2") (answerTo "http://10.0.0.1:5000/rootDesc.xml") []).map' (List.map rootRequest) =
    .ok [ascii "GET /ROOTDESC.XML HTTP/1.1\r\nUser-Agent: mtTorrent\r\nConnection: close\r\nHost: 10.0.0.1:5000\r\nAccept: text/xml\r\n\r\n"] := by
  decide +kernel

/-- C79 fails: a location that is too short ends the program; for one without a port, a number that was never set is used. -/
theorem C79_location_violated : onDatagram 10 (ascii "10.0.0.1") (ascii "10.0.0.2") (answerTo "x:") [] = .ub ∧
    onDatagram 10 (ascii "10.0.0.1") (ascii "10.0.0.2") (answerTo "http://10.0.0.1/D.XML") [] = .ub := by decide +kernel

/-- C79 fails: a description said to be nearly 4 GB long is read behind the end of the memory. -/
theorem C79_length_violated : onReceive 10 (reply 4294967295 (ascii "<a></a>")) [] blank = .ub := by decide +kernel

/-- C79 fails: of two connections only one is closed at the end; a description on the other one ends the program. -/
theorem C79_stop_violated (l l' : Location) (hl : l = ⟨ascii "10.0.0.1", ascii "10.0.0.2", 5000, ascii "/D.XML"⟩)
    (hl' : l' = ⟨ascii "10.1.0.1", ascii "10.1.0.2", 5000, ascii "/D.XML"⟩) :
    onData 10 (stop (onLocations (onLocations {} [l]) [l'])) 0 (reply 7 (ascii "<a></a>")) [] = .ub := by
  subst hl hl'; decide +kernel

/-- C79 fails: a description with an empty name or without anything behind it makes the program read past the elements. -/
theorem C79_empty_violated : onRootXml (ascii "<r><device><friendlyName></friendlyName></device></r>") blank = .ub := by decide +kernel

/-- C79 fails: a relative control URL is not completed, and another version of the service is not used. -/
theorem C79_control_violated (u : Device) (hu : u = { blank with services := [(ascii "urn:schemas-upnp-org:service:WANIPConnection:1", ascii "ctl")] })
    (v : Device) (hv : v = { blank with services := [(ascii "urn:schemas-upnp-org:service:WANIPConnection:2", ascii "/ctl")] }) :
    (mapRequest [u] u (6881, .tcp)).data.take 17 = ascii "POST ctl HTTP/1.1" ∧
    (mapRequest [v] v (6881, .tcp)).data.take 18 = ascii "POST /ipc HTTP/1.1" := by
  subst hu hv; decide +kernel

end Verif

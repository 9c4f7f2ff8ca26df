import Verif.Proof.TrackersRun
/-! C41, C65 and C66: the list of trackers, tracker addresses, and the running of trackers. -/

namespace Verif
open Trackers Spec

/-! ### C65 -/

/-- C65 (partial: hosts without ':', see `C65_ipv6_violated`): an address is taken apart into the parts it was made
of. The protocol has no ':', the port no '/', the path is empty or starts with '/', and the text behind "://" starts
with a byte other than 0. -/
theorem C65_parts_partial (protocol host : List UInt8) (port : Option (List UInt8)) (path : List UInt8)
    (hprot : ∀ b ∈ protocol, b ≠ chr ':') (hhost : ∀ b ∈ host, b ≠ chr ':' ∧ b ≠ chr '/') (hport : ∀ p, port = some p → ∀ b ∈ p, b ≠ chr '/')
    (hpath : path = [] ∨ path.head? = some (chr '/')) (h0 : ∃ b bs, host = b :: bs ∧ b ≠ 0) :
    Uri.parse (address protocol host port path) = ⟨protocol, host, port.getD [], path⟩ := by
  have e : address protocol host port path = protocol ++ ascii "://" ++ (host ++ portText port ++ path) := by
    unfold address
    simp only [List.append_assoc]
  rw [e]
  refine parse_rest (split_protocol hprot ?_) host port path rfl hhost hport hpath
  obtain ⟨b, bs, rfl, hb⟩ := h0
  exact ⟨b, _, rfl, hb⟩

example : Uri.parse (ascii "udp://tracker.org:1337/announce") = ⟨ascii "udp", ascii "tracker.org", ascii "1337", ascii "/announce"⟩ := by
  have h := C65_parts_partial (ascii "udp") (ascii "tracker.org") (some (ascii "1337")) (ascii "/announce") (by decide) (by decide)
    (by intro p hp; cases hp; decide) (.inr (by decide)) ⟨chr 't', ascii "racker.org", by decide, by decide⟩
  exact h

/-- C65 is false for hosts written as IPv6 addresses: host and port are cut at the first ':'. -/
theorem C65_ipv6_violated :
    address (ascii "udp") (ascii "[::1]") (some (ascii "80")) (ascii "/announce") = ascii "udp://[::1]:80/announce" ∧
      (Uri.parse (ascii "udp://[::1]:80/announce")).host = ascii "[" ∧ (Uri.parse (ascii "udp://[::1]:80/announce")).port = ascii ":1]:80" := by
  decide

/-! ### C41 -/

/-- C41: every address given that has a port, or is of a https tracker, has an entry with its host and port, whatever
the other addresses are and in whatever order they come. -/
theorem C41_kept (addrs : List (List UInt8)) (a : List UInt8) (ha : a ∈ addrs) (h : (place a).2 ≠ [] ∨ (Uri.parse a).protocol = ascii "https") :
    ∃ t ∈ addTrackers [] addrs, (t.uri.host, t.uri.port) = place a := by
  obtain ⟨t, ht, e1, e2⟩ := addTrackers_present h (ts := []) ha
  exact ⟨t, ht, by rw [e1, e2]; rfl⟩

/-- C41: every entry stems from an address given, with its host, port and path. Its protocol is the one of that address,
or it is udp with http as the second choice, and then both were given for this host and port. -/
theorem C41_genuine (addrs : List (List UInt8)) : ∀ t ∈ addTrackers [] addrs,
    t.fullAddress ∈ addrs ∧ (t.uri.host, t.uri.port) = place t.fullAddress ∧ t.uri.path = (Uri.parse t.fullAddress).path ∧
      (t.uri.port ≠ [] ∨ t.uri.protocol = ascii "https") ∧
      ((t.httpFallback = false ∧ t.uri.protocol = (Uri.parse t.fullAddress).protocol) ∨
        (t.httpFallback = true ∧ t.uri.protocol = ascii "udp" ∧ ∃ u ∈ addrs, ∃ v ∈ addrs, place u = (t.uri.host, t.uri.port) ∧ place v = (t.uri.host, t.uri.port) ∧
          (Uri.parse u).protocol = ascii "udp" ∧ (Uri.parse v).protocol = ascii "http")) := by
  intro t ht
  obtain ⟨h1, h2, h3, h4, h5, h6⟩ := addTrackers_genuine addrs [] (ts := []) (by simp) t ht
  exact ⟨by simpa using h1, by rw [h2, h3]; rfl, h4, h5, by simpa using h6⟩

/-- C41 (partial: if each host has one port and https addresses have a port, see `C41_two_ports_violated` and
`C41_https_violated`): no two entries have the same host. -/
theorem C41_once_partial (addrs : List (List UInt8)) (h : OnePort addrs) : (addTrackers [] addrs).Pairwise (fun x y => x.uri.host ≠ y.uri.host) :=
  addTrackers_once addrs [] (by simp) h.1 (by simpa [place] using h.2) (by simp) List.Pairwise.nil

/-- C41 (partial: as in `C41_once_partial`): in whatever order the addresses of a host come, if udp and http are both
among them, the one entry of the host is a udp tracker with http as second choice; otherwise it has the protocol of
its addresses. -/
theorem C41_both_partial (addrs : List (List UInt8)) (h : OnePort addrs) (host : List UInt8)
    (hprot : ∀ a ∈ addrs, (place a).1 = host → (Uri.parse a).protocol = ascii "udp" ∨ (Uri.parse a).protocol = ascii "http")
    {t : Info} (ht : t ∈ addTrackers [] addrs) (he : t.uri.host = host) :
    (t.httpFallback = true ∧ t.uri.protocol = ascii "udp") ∨ ∀ a ∈ addrs, (place a).2 ≠ [] → (place a).1 = host → (Uri.parse a).protocol = t.uri.protocol := by
  obtain ⟨_, h2⟩ := addTrackers_both host addrs [] (ts := []) (by simp) (by simp) (by simp) h.1 hprot (by simpa [place] using h.2) (by simp) List.Pairwise.nil t ht
  simpa [place] using (h2 he).2

private def u1 : List UInt8 := ascii "udp://h:80"
private def h1 : List UInt8 := ascii "http://h:80/announce"
private def g1 : List UInt8 := ascii "udp://g:9"

private theorem onePort_example : OnePort [h1, g1, u1, h1] := by
  refine ⟨by decide, by decide⟩

example : (addTrackers [] [h1, g1, u1, h1]).Pairwise (fun x y => x.uri.host ≠ y.uri.host) ∧ (addTrackers [] [h1, g1, u1, h1]).length = 2 ∧
    ∃ t ∈ addTrackers [] [h1, g1, u1, h1], (t.uri.host, t.uri.port) = (ascii "h", ascii "80") ∧ t.httpFallback = true ∧ t.uri.protocol = ascii "udp" := by
  refine ⟨C41_once_partial _ onePort_example, by decide, ?_⟩
  obtain ⟨t, ht, e⟩ := C41_kept [h1, g1, u1, h1] u1 (by decide) (by decide)
  refine ⟨t, ht, by rw [e]; decide, ?_⟩
  rcases C41_both_partial _ onePort_example (ascii "h") (by decide) ht (by have := (Prod.mk.inj e).1; rw [this]; decide) with h | h
  · exact h
  · have a := h u1 (by decide) (by decide) (by decide)
    have b := h h1 (by decide) (by decide) (by decide)
    rw [← a] at b
    exact absurd b (by decide)

/-- C41 is false for a host with two ports: the second is compared only with the first entry of the host, and is
entered again each time it is given. -/
theorem C41_two_ports_violated :
    (addTrackers [] [ascii "udp://h:80", ascii "udp://h:81", ascii "udp://h:81"]).map (fun t => (t.uri.host, t.uri.port)) =
      [(ascii "h", ascii "80"), (ascii "h", ascii "81"), (ascii "h", ascii "81")] := by
  decide

/-- C41 is false for https addresses without port: they are not compared at all. -/
theorem C41_https_violated :
    (addTrackers [] [ascii "https://h/announce", ascii "https://h/announce"]).map (fun t => (t.uri.host, t.fullAddress)) =
      [(ascii "h", ascii "https://h/announce"), (ascii "h", ascii "https://h/announce")] := by
  decide

/-- C41 is false for http addresses without port: the tracker is refused. -/
theorem C41_default_port_violated : addTracker [] (ascii "http://tracker.org/announce") = ([], .invalidInput) := by
  decide

/-- C41 is false for the path of a http tracker given after a udp address of the host: it is dropped, and the http
tracker is later asked under another path. -/
theorem C41_path_violated :
    (addTrackers [] [ascii "udp://h:80", ascii "http://h:80/announce"]).map (fun t => (t.httpFallback, t.uri.path, t.fullAddress)) = [(true, [], ascii "udp://h:80")] := by
  decide

/-! ### C66 -/

/-- C66 (partial: for orderly histories, see the violations below): nothing that happens between adding, starting and
stopping, in whatever order answers, failures, timers and posted tasks come, uses a tracker that is gone. -/
theorem C66_safe_partial (ssl : Bool) (es : List Ev) (ho : OrderlyRun ssl {} es) : run ssl {} es ≠ some .ub ∧ run ssl {} es ≠ some .diverge := by
  refine ⟨fun h => ?_, fun h => ?_⟩
  · obtain ⟨_, e, _⟩ := run_good es good_init ho h; cases e
  · obtain ⟨_, e, _⟩ := run_good es good_init ho h; cases e

/-- C66 (partial: for orderly histories): once the trackers have been started, and until they are stopped, every
tracker of a supported protocol has exactly one thing under way: an announce, an answer or failure to be handled, a
restart, or a timer for the next announce. So it is never forgotten and never asked twice at a time. -/
theorem C66_one_partial (ssl : Bool) (es : List Ev) (ho : OrderlyRun ssl {} es) {s : State} (hr : run ssl {} es = some (.ok s))
    (hon : s.callback = true) (hst : Task.startAll ∉ s.tasks) (k : Nat) (hk : k < s.trackers.length) (hs : supported ssl (s.trackers[k]).uri.protocol = true) :
    ∃ c, (s.trackers[k]).comm = some c ∧ underWay s k c = 1 := by
  obtain ⟨s', e, hg⟩ := run_good es good_init ho hr
  cases e
  have e : s.trackers[k]? = some s.trackers[k] := by simp [hk]
  cases hc : (s.trackers[k]).comm with
  | none => exact absurd hc (hg.on hon hst _ (List.getElem_mem hk) hs)
  | some c => exact ⟨c, rfl, by have := hg.inv.tokens k _ c e hc; simpa using this⟩

/-- C66 (partial: for orderly histories): after a stop, and until the next start, no announce is under way, no timer
runs, and nothing posted will start a tracker. -/
theorem C66_stopped_partial (ssl : Bool) (es : List Ev) (ho : OrderlyRun ssl {} es) {s : State} (hr : run ssl {} es = some (.ok s))
    (hoff : s.callback = false) : s.announcing = [] ∧ s.armed = [] ∧ ¬ Starting s := by
  obtain ⟨s', e, hg⟩ := run_good es good_init ho hr
  cases e
  obtain ⟨hc, hns⟩ := hg.off hoff
  obtain ⟨_, h2, h3, _⟩ := hg.inv.clean hc
  exact ⟨h3, h2, hns⟩

/-- C66: the answer of a running tracker is followed by the next announce after the interval it asks for. -/
theorem C66_interval {ssl : Bool} {s s' : State} {c i k : Nat} {t : Info} {y : Timer} (h : step ssl s (.runs (.announced c i)) = some (.ok s')) (hon : s.callback = true)
    (hk : findComm s.trackers c = some k) (ht : s.trackers[k]? = some t) (hy : t.timer = some y) :
    s'.armed.filter (fun a => a.1 == y) = [(y, i)] ∧ s'.trackers = s.trackers.set k { t with retryCount := 0 } := by
  obtain ⟨hlt, ek⟩ := List.getElem?_eq_some_iff.mp ht
  simp only [step] at h
  split at h
  · simp only [runTask, onAnnounce, hon, hk, Bool.not_true, Bool.false_eq_true, if_false, rd_eq_ok hlt, ek, Res.bind_ok, hy] at h
    cases h
    refine ⟨?_, by simp [hy]⟩
    simp [schedule, List.filter_append, List.filter_filter]
  · cases h

/-- C66: a failure of a running tracker without second protocol is followed by the next announce after 30 s, the second
failure in succession after 60 s, and so on. -/
theorem C66_retry {ssl : Bool} {s s' : State} {c k : Nat} {t : Info} {y : Timer} (h : step ssl s (.runs (.failed c)) = some (.ok s')) (hon : s.callback = true)
    (hk : findComm s.trackers c = some k) (ht : s.trackers[k]? = some t) (hy : t.timer = some y) (hf : t.httpFallback = false) :
    s'.armed.filter (fun a => a.1 == y) = [(y, 30 * (t.retryCount + 1))] ∧ s'.trackers = s.trackers.set k { t with retryCount := t.retryCount + 1 } := by
  obtain ⟨hlt, ek⟩ := List.getElem?_eq_some_iff.mp ht
  simp only [step] at h
  split at h
  · simp only [runTask, onTrackerFail, hon, hk, Bool.not_true, Bool.false_eq_true, if_false, rd_eq_ok hlt, ek, Res.bind_ok, hy, hf, false_and] at h
    cases h
    refine ⟨?_, by simp [hy, hf]⟩
    simp [schedule, List.filter_append, List.filter_filter]
  · cases h

/-- C66: when a tracker known under both protocols fails under udp for the first time, it is asked under http next, by a new
object, and the old one has nothing under way any more. -/
theorem C66_fallback {ssl : Bool} {s s1 s2 : State} {c k : Nat} {t : Info} (h1 : step ssl s (.runs (.failed c)) = some (.ok s1)) (hon : s.callback = true)
    (hk : findComm s.trackers c = some k) (ht : s.trackers[k]? = some t) (hc : t.comm = some c) (hlt : c < s.comms)
    (hf : t.httpFallback = true ∧ t.httpFallbackUsed = false ∧ t.uri.protocol = ascii "udp") (h2 : step ssl s1 (.runs (.restart ⟨s.mem, k⟩)) = some (.ok s2)) :
    (∃ u, s2.trackers[k]? = some u ∧ u.uri = { t.uri with protocol := ascii "http" } ∧ u.httpFallbackUsed = true ∧ u.comm = some s.comms) ∧
      s.comms ∈ s2.announcing ∧ c ∉ s2.announcing := by
  obtain ⟨hl, ek⟩ := List.getElem?_eq_some_iff.mp ht
  simp only [step] at h1
  split at h1
  · simp only [runTask, onTrackerFail, hon, hk, Bool.not_true, Bool.false_eq_true, if_false, rd_eq_ok hl, ek, Res.bind_ok, hf.1, hf.2.1, hf.2.2,
      Bool.not_false, true_and, and_self, if_true] at h1
    cases h1
    simp only [step] at h2
    split at h2
    · simp only [runTask, restart, startTracker, ne_eq, not_true_eq_false, if_false] at h2
      rw [rd_eq_ok (by simpa using hl)] at h2
      simp only [Res.bind_ok, List.getElem_set_self, List.set_set] at h2
      rw [rd_eq_ok (by simpa using hl)] at h2
      simp only [Res.bind_ok, List.getElem_set_self, supported_http, if_true, hc, dropComm] at h2
      cases h2
      refine ⟨⟨_, (by simp only [announce, List.getElem?_set_self hl]; rfl), rfl, rfl, rfl⟩, by simp [announce], ?_⟩
      simp only [announce, List.mem_append, List.mem_filter, List.mem_singleton, bne_iff_ne, ne_eq]
      rintro (⟨_, hx⟩ | hx)
      · exact hx trivial
      · omega
    · cases h2
  · cases h1

private def day : List Ev :=
  [.add u1, .add h1, .start, .runs .startAll, .fails 0, .runs (.failed 0), .runs (.restart ⟨1, 0⟩), .succeeds 1 1800, .runs (.announced 1 1800),
    .fires (⟨1, ⟨1, 0⟩⟩, 1800), .fails 1, .runs (.failed 1)]

private def dayState : State :=
  { trackers := [{ comm := some 2, timer := some ⟨2, ⟨1, 0⟩⟩, uri := { Uri.parse u1 with protocol := ascii "udp" }, fullAddress := u1, httpFallback := true, httpFallbackUsed := true }],
    mem := 1, cap := 1, callback := true, comms := 3, timers := 3, announcing := [2] }

private theorem day_run : run false {} day = some (.ok dayState) := by decide

instance (s : State) : Decidable (Starting s) :=
  decidable_of_iff (s.tasks.any fun t => match t with | .startAll => true | .restart _ => true | _ => false) (by
    unfold Starting
    rw [List.any_eq_true]
    constructor
    · rintro ⟨t, ht, h⟩
      cases t with
      | startAll => exact .inl ht
      | restart p => exact .inr ⟨p, ht⟩
      | announced => cases h
      | failed => cases h
    · rintro (h | ⟨p, h⟩)
      · exact ⟨_, h, rfl⟩
      · exact ⟨_, h, rfl⟩)

/-- A history without stop, in which trackers are added and started only before the first start, is orderly. -/
private theorem day_orderly : OrderlyRun false {} day := by
  have next : ∀ {e : Ev} {s s' : State} {es : List Ev}, OrderlyEv s e → step false s e = some (.ok s') → OrderlyRun false s' es → OrderlyRun false s (e :: es) := by
    intro e s s' es h1 h2 h3
    refine ⟨h1, fun s1 h => ?_⟩
    rw [h2] at h; cases h; exact h3
  unfold day
  refine next rfl rfl (next rfl rfl (next rfl rfl (next trivial rfl (next trivial rfl (next trivial rfl (next trivial rfl (next trivial rfl (next trivial rfl
    (next trivial rfl (next trivial rfl (next trivial rfl trivial)))))))))))

example : ∃ c, dayState.trackers[0].comm = some c ∧ underWay dayState 0 c = 1 :=
  C66_one_partial false day day_orderly day_run (by decide) (by decide) 0 (by decide) (by decide)

example : run false {} day ≠ some .ub := (C66_safe_partial false day day_orderly).1

example : (stop dayState).announcing = [] ∧ (stop dayState).armed = [] ∧ ¬ Starting (stop dayState) := by decide

private def busy : State :=
  { trackers := [{ comm := some 0, timer := some ⟨0, ⟨1, 0⟩⟩, uri := Uri.parse u1, fullAddress := u1, httpFallback := true }], mem := 1, cap := 1, callback := true,
    comms := 1, timers := 1, tasks := [.failed 0] }

example : ∃ s1 s2, step false busy (.runs (.failed 0)) = some (.ok s1) ∧ step false s1 (.runs (.restart ⟨1, 0⟩)) = some (.ok s2) ∧ 1 ∈ s2.announcing ∧ 0 ∉ s2.announcing :=
  ⟨_, _, rfl, rfl, (C66_fallback (ssl := false) (s := busy) (c := 0) (k := 0) (t := { comm := some 0, timer := some ⟨0, ⟨1, 0⟩⟩, uri := Uri.parse u1, fullAddress := u1, httpFallback := true })
    rfl rfl rfl rfl rfl (by decide) (by decide) rfl).2⟩

private def lone : State :=
  { trackers := [{ comm := some 0, timer := some ⟨0, ⟨1, 0⟩⟩, uri := Uri.parse g1, fullAddress := g1, retryCount := 2 }], mem := 1, cap := 1, callback := true,
    comms := 1, timers := 1, tasks := [.failed 0, .announced 0 1800] }

example : ∃ s', step false lone (.runs (.failed 0)) = some (.ok s') ∧ s'.armed.filter (fun a => a.1 == ⟨0, ⟨1, 0⟩⟩) = [(⟨0, ⟨1, 0⟩⟩, 90)] :=
  ⟨_, rfl, (C66_retry (ssl := false) (s := lone) (c := 0) (k := 0) (t := { comm := some 0, timer := some ⟨0, ⟨1, 0⟩⟩, uri := Uri.parse g1, fullAddress := g1, retryCount := 2 })
    rfl rfl rfl rfl rfl rfl).1⟩

example : ∃ s', step false lone (.runs (.announced 0 1800)) = some (.ok s') ∧ s'.armed.filter (fun a => a.1 == ⟨0, ⟨1, 0⟩⟩) = [(⟨0, ⟨1, 0⟩⟩, 1800)] :=
  ⟨_, rfl, (C66_interval (ssl := false) (s := lone) (c := 0) (k := 0) (t := { comm := some 0, timer := some ⟨0, ⟨1, 0⟩⟩, uri := Uri.parse g1, fullAddress := g1, retryCount := 2 })
    rfl rfl rfl rfl rfl).1⟩

/-- C66 is false for a tracker added while others run (`Peers::importTrackers`): the vector moves to other memory, and the
timer of the running tracker is left with a pointer to the old one. -/
theorem C66_moved_violated :
    run false {} [.add u1, .start, .runs .startAll, .succeeds 0 1800, .runs (.announced 0 1800), .add g1, .fires (⟨0, ⟨1, 0⟩⟩, 1800)] = some .ub := by
  decide

/-- C66 is false for a tracker added while others run also for the new one: nothing asks it, and when everything posted
has run nothing ever will. -/
theorem C66_forgotten_violated : ∃ s, run false {} [.add u1, .start, .runs .startAll, .add g1] = some (.ok s) ∧ s.callback = true ∧ s.tasks = [] ∧
    s.armed = [] ∧ s.announcing = [0] ∧ s.trackers.map (fun t => (t.uri.host, t.comm)) = [(ascii "h", some 0), (ascii "g", none)] :=
  ⟨_, rfl, by decide⟩

/-- C66 is false for a stop right after a start: what was posted by the start runs after the stop, and the stopped tracker
is asked. Its answer is then dropped. -/
theorem C66_late_start_violated : ∃ s, run false {} [.add u1, .start, .stop, .runs .startAll] = some (.ok s) ∧ s.callback = false ∧ s.announcing = [0] :=
  ⟨_, rfl, by decide⟩

/-- C66 is false if the user asks for an announce while the timer for the next one runs (`Peers::refreshSource`): when that
announce fails and http is tried next, the tracker gets a new timer while the old one runs. The stop ends only the new one,
and when the old one fires the tracker object is gone. -/
theorem C66_refresh_violated :
    run false {} [.add u1, .add h1, .start, .runs .startAll, .succeeds 0 1800, .runs (.announced 0 1800), .refresh u1, .fails 0, .runs (.failed 0), .runs (.restart ⟨1, 0⟩),
      .stop, .fires (⟨0, ⟨1, 0⟩⟩, 1800)] = some .ub := by
  decide

end Verif

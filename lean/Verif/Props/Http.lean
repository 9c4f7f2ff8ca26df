import Verif.Proof.Http
/-! C43: HTTP headers. -/

namespace Verif
open Http Spec Bencode

private def exStatus : List UInt8 := ascii "HTTP/1.1 200 Ok"
private def exFields : List (List UInt8 × List UInt8) := [(ascii "Server", ascii "x:y"), (ascii "content-length", ascii "12"), (ascii "X", [])]

private theorem oneLine_of {l : List UInt8} (h : (13 : UInt8) ∉ l) : OneLine l := by
  intro a b he; exact h (by rw [he]; simp [crlf])

private theorem exGoodHeader : GoodHeader exStatus exFields where
  http := by decide +kernel
  line := oneLine_of (by decide +kernel)
  colon := by decide +kernel
  fieldLine := by
    intro f hf
    have hall : exFields.all (fun f => decide ((13 : UInt8) ∉ f.1 ++ ascii ": " ++ f.2)) = true := by decide +kernel
    exact oneLine_of (by simpa using List.all_eq_true.mp hall f hf)
  name := by decide +kernel

private theorem status_name {status : List UInt8} {fs : List (List UInt8 × List UInt8)} (h : GoodHeader status fs) :
    capitals status ≠ ascii "CONTENT-LENGTH" ∧ capitals status ≠ ascii "TRANSFER-ENCODING" := by
  have h1 : (capitals status).take 4 = ascii "HTTP" := by
    unfold capitals
    rw [← List.map_take, h.http]
    decide
  constructor <;>
  · intro he
    rw [he] at h1
    exact absurd h1 (by decide)

private theorem header_ne {status : List UInt8} {fs : List (List UInt8 × List UInt8)} : (header status fs).length ≠ 0 := by
  unfold header; simp [crlf]

private theorem body_length (h body : List UInt8) : (h ++ body).length = h.length ↔ body = [] := by
  rw [List.length_append]
  constructor
  · intro hh; exact List.length_eq_zero_iff.mp (by omega)
  · intro hh; simp [hh]

/-- C43 (partial: complete headers only, with "name: value" lines; see the violations): a reply with a header that gives the length of
the content is read exactly. The status line and the fields are reported in order, in capitals. The payload is
what follows the header, its size the given length. -/
theorem C43_length_partial {status : List UInt8} {fs gs : List (List UInt8 × List UInt8)} {name : List UInt8} {k : Nat}
    (h : GoodHeader status (fs ++ (name, dec k) :: gs)) (hk : k < 4294967296) (hn : named (name, dec k) "CONTENT-LENGTH")
    (ho : ∀ f ∈ fs ++ gs, ¬named f "CONTENT-LENGTH" ∧ ¬named f "TRANSFER-ENCODING")
    (body after : List UInt8) (hl : (header status (fs ++ (name, dec k) :: gs) ++ body).length < 4294967296)
    (n : Nat) (hr : (fs ++ (name, dec k) :: gs).length + 2 ≤ n) :
    ∃ i, read n (header status (fs ++ (name, dec k) :: gs) ++ body) after = .ok i ∧
      i.params = (capitals status, []) :: (fs ++ (name, dec k) :: gs).map (fun f => (capitals f.1, capitals f.2)) ∧
      i.dataStart = (header status (fs ++ (name, dec k) :: gs)).length ∧ i.dataSize = k ∧
      (i.valid = true ↔ k ≠ 0 ∨ body = []) ∧ (i.success = true ↔ says200 status) := by
  have hst := status_name h
  have hne : (header status (fs ++ (name, dec k) :: gs)).length ≠ 0 := by
    unfold header; simp [crlf]
  have hcap : capitals (dec k) = dec k := by rw [← capitals_upper, upper_digits]
  have hi := fun i => applyAll_other (header status (fs ++ (name, dec k) :: gs) ++ body) after
    ((capitals status, []) :: fs.map fun f => (capitals f.1, capitals f.2)) i ((capitals name, capitals (dec k)) :: gs.map fun f => (capitals f.1, capitals f.2))
    (by
      intro p hp
      rcases List.mem_cons.mp hp with rfl | hp
      · exact hst
      · obtain ⟨f, hf, rfl⟩ := List.mem_map.mp hp
        exact ho f (List.mem_append_left _ hf))
  have hg := fun i => applyAll_other (header status (fs ++ (name, dec k) :: gs) ++ body) after (gs.map fun f => (capitals f.1, capitals f.2)) i []
    (by
      intro p hp
      obtain ⟨f, hf, rfl⟩ := List.mem_map.mp hp
      exact ho f (List.mem_append_right _ hf))
  have hrd := read_header h body after n hr hl
    { dataStart := (header status (fs ++ (name, dec k) :: gs)).length
      params := (capitals status, []) :: (fs ++ (name, dec k) :: gs).map (fun f => (capitals f.1, capitals f.2))
      dataSize := k }
    (by
      have := hi { dataStart := (header status (fs ++ (name, dec k) :: gs)).length
                   params := (capitals status, []) :: (fs ++ (name, dec k) :: gs).map (fun f => (capitals f.1, capitals f.2)) }
      rw [List.cons_append] at this
      conv at this => lhs; arg 3; arg 2; rw [← List.map_cons (f := fun f : List UInt8 × List UInt8 => (capitals f.1, capitals f.2)) (a := (name, dec k)), ← List.map_append]
      rw [this, applyAll, show capitals name = ascii "CONTENT-LENGTH" from hn, hcap, apply_length _ _ _ _ hk, Res.bind_ok]
      have := hg { dataStart := (header status (fs ++ (name, dec k) :: gs)).length
                   params := (capitals status, []) :: (fs ++ (name, dec k) :: gs).map (fun f => (capitals f.1, capitals f.2))
                   dataSize := k }
      rw [List.append_nil] at this
      rw [this]
      rfl)
  refine ⟨_, hrd, ?_⟩
  have hc := contains_iff (ascii "200 OK") (capitals status)
  have hb : (header status (fs ++ (name, dec k) :: gs) ++ body).length = (header status (fs ++ (name, dec k) :: gs)).length ↔ body = [] := by
    rw [List.length_append]
    constructor
    · intro hh; exact List.length_eq_zero_iff.mp (by omega)
    · intro hh; simp [hh]
  unfold says200
  rw [← hc]
  simp only [hb]
  by_cases hv : k ≠ 0 ∨ body = [] <;> by_cases hu : contains (ascii "200 OK") (capitals status) = true <;>
    simp only [hne, hv, hu, ne_eq, not_false_eq_true, true_and, not_true_eq_false, and_false, if_true, if_false, and_self, and_true, Bool.false_eq_true, iff_self, iff_true, iff_false]

example : GoodHeader exStatus exFields := exGoodHeader
example : read 9 (header exStatus exFields ++ ascii "hello world!") [] = .ok
    { valid := true, success := true, dataStart := 57, dataSize := 12
      params := [(ascii "HTTP/1.1 200 OK", []), (ascii "SERVER", ascii "X:Y"), (ascii "CONTENT-LENGTH", ascii "12"), (ascii "X", [])] } := by
  decide +kernel

/-- C43: a reply whose header gives no length is reported as valid only if nothing follows the header. -/
theorem C43_no_length {status : List UInt8} {fs : List (List UInt8 × List UInt8)} (h : GoodHeader status fs)
    (ho : ∀ f ∈ fs, ¬named f "CONTENT-LENGTH" ∧ ¬named f "TRANSFER-ENCODING")
    (body after : List UInt8) (hl : (header status fs ++ body).length < 4294967296) (n : Nat) (hr : fs.length + 2 ≤ n) :
    ∃ i, read n (header status fs ++ body) after = .ok i ∧
      i.params = (capitals status, []) :: fs.map (fun f => (capitals f.1, capitals f.2)) ∧
      i.dataStart = (header status fs).length ∧ i.dataSize = 0 ∧ (i.valid = true ↔ body = []) ∧ (i.success = true ↔ says200 status) := by
  have hst := status_name h
  have hi := applyAll_other (header status fs ++ body) after ((capitals status, []) :: fs.map fun f => (capitals f.1, capitals f.2))
    { dataStart := (header status fs).length, params := (capitals status, []) :: fs.map (fun f => (capitals f.1, capitals f.2)) } []
    (by
      intro p hp
      rcases List.mem_cons.mp hp with rfl | hp
      · exact hst
      · obtain ⟨f, hf, rfl⟩ := List.mem_map.mp hp
        exact ho f hf)
  rw [List.append_nil] at hi
  refine ⟨_, read_header h body after n hr hl _ hi, ?_⟩
  have hc := contains_iff (ascii "200 OK") (capitals status)
  have hne := header_ne (status := status) (fs := fs)
  have hb := body_length (header status fs) body
  unfold says200
  rw [← hc]
  simp only [hb]
  by_cases hv : body = [] <;> by_cases hu : contains (ascii "200 OK") (capitals status) = true <;>
    simp only [hne, hv, hu, ne_eq, not_false_eq_true, true_and, not_true_eq_false, and_false, if_true, if_false, and_self, and_true, Bool.false_eq_true, iff_self, iff_true, iff_false, or_false, or_true]

/-- C43 (partial: for the first chunk only): of a chunked reply the first chunk is reported, if there is no line end inside the chunks. -/
theorem C43_chunked_partial {status : List UInt8} {fs gs : List (List UInt8 × List UInt8)} {f : List UInt8 × List UInt8}
    (h : GoodHeader status (fs ++ f :: gs)) (hn : named f "TRANSFER-ENCODING") (hc : capitals f.2 = ascii "CHUNKED")
    (ho : ∀ f ∈ fs ++ gs, ¬named f "CONTENT-LENGTH" ∧ ¬named f "TRANSFER-ENCODING")
    {d : List UInt8} {ds : List (List UInt8)} (hd : ∀ x ∈ d :: ds, x ≠ [] ∧ OneLine x) (after : List UInt8)
    (hl : (header status (fs ++ f :: gs) ++ ((d :: ds).flatMap chunk ++ (ascii "0" ++ crlf ++ crlf))).length < 4294967296)
    (n : Nat) (hr : (fs ++ f :: gs).length + 2 ≤ n) :
    ∃ i, read n (header status (fs ++ f :: gs) ++ ((d :: ds).flatMap chunk ++ (ascii "0" ++ crlf ++ crlf))) after = .ok i ∧
      i.dataStart = (header status (fs ++ f :: gs)).length + (hexNumber d.length ++ crlf).length ∧ i.dataSize = d.length ∧
      i.valid = true ∧ (i.success = true ↔ says200 status) := by
  have hst := status_name h
  have h0 : ascii "0" = hexNumber 0 := by decide +kernel
  rw [h0] at hl ⊢
  generalize htot : header status (fs ++ f :: gs) ++ ((d :: ds).flatMap chunk ++ (hexNumber 0 ++ crlf ++ crlf)) = buf at *
  have hfl : ∀ l : List (List UInt8), 5 * l.length ≤ (l.flatMap chunk).length := by
    intro l
    induction l with
    | nil => simp
    | cons a l ih =>
      have h1 : 0 < (hexNumber a.length).length := List.length_pos_iff.mpr (hexNumber_ne a.length)
      simp only [List.flatMap_cons, List.length_append, List.length_cons, chunk, crlf, List.length_nil]
      omega
  have hfl' := hfl (d :: ds)
  have hblen : buf.length = (header status (fs ++ f :: gs)).length + (((d :: ds).flatMap chunk).length + (hexNumber 0 ++ crlf ++ crlf).length) := by
    rw [← htot]; simp only [List.length_append]
  obtain ⟨hr1, hr2⟩ : ((d :: ds).flatMap chunk).length = (hexNumber d.length).length + 2 + (d ++ crlf ++ ds.flatMap chunk).length ∧ d.length ≤ ((d :: ds).flatMap chunk).length := by
    simp only [List.flatMap_cons, chunk, List.length_append, crlf, List.length_cons, List.length_nil]; omega
  obtain ⟨r, hr3, hr4, hr5⟩ := chunks_body buf.length after (d :: ds) (buf.length + 1) (by
    intro x hx
    refine ⟨(hd x hx).1, (hd x hx).2, ?_⟩
    have hle : x.length ≤ ((d :: ds).flatMap chunk).length := by
      have : ∀ l : List (List UInt8), x ∈ l → x.length ≤ (l.flatMap chunk).length := by
        intro l
        induction l with
        | nil => intro hx; cases hx
        | cons a l ih =>
          intro hx
          simp only [List.flatMap_cons, List.length_append]
          rcases List.mem_cons.mp hx with rfl | hx
          · have : x.length ≤ (chunk x).length := by simp only [chunk, List.length_append]; omega
            omega
          · have := ih hx; omega
      exact this _ hx
    omega) (by omega)
  have hr4 := hr4 d ds rfl
  obtain ⟨x, r', rfl⟩ : ∃ x r', r = x :: r' := by
    cases r with
    | nil => simp at hr5
    | cons x r' => exact ⟨x, r', rfl⟩
  simp only [List.head?_cons, Option.some.injEq] at hr4
  have hstart : (buf.length - (d ++ crlf ++ (ds.flatMap chunk ++ (hexNumber 0 ++ crlf ++ crlf))).length) % 4294967296 =
      (header status (fs ++ f :: gs)).length + (hexNumber d.length ++ crlf).length := by
    have h1 : (d ++ crlf ++ (ds.flatMap chunk ++ (hexNumber 0 ++ crlf ++ crlf))).length = (d ++ crlf ++ ds.flatMap chunk).length + (hexNumber 0 ++ crlf ++ crlf).length := by
      simp only [List.length_append]; omega
    have h2 : (hexNumber d.length ++ crlf).length = (hexNumber d.length).length + 2 := by simp [crlf]
    rw [h1, h2]
    omega
  rw [hstart] at hr4
  have hdrop : buf.drop (header status (fs ++ f :: gs)).length = (d :: ds).flatMap chunk ++ (hexNumber 0 ++ crlf ++ crlf) := by
    rw [← htot]; exact List.drop_left' rfl
  have hap : ∀ i : Info, i.dataSize = 0 → i.dataStart = (header status (fs ++ f :: gs)).length →
      apply buf after i (capitals f.1, capitals f.2) = .ok { i with dataStart := x.1, dataSize := x.2 } := by
    intro i hi1 hi2
    unfold apply
    have hn' : capitals f.1 = ascii "TRANSFER-ENCODING" := hn
    simp only [hn', hc]
    rw [if_neg (by intro hh; exact absurd hh.1 (by decide)), Res.pure_eq, Res.bind_ok, if_pos ⟨hi1, trivial, trivial⟩, hi2, hdrop, hr3, Res.bind_ok]
    rfl
  have hi := fun i => applyAll_other buf after ((capitals status, []) :: fs.map fun f => (capitals f.1, capitals f.2)) i
    ((capitals f.1, capitals f.2) :: gs.map fun f => (capitals f.1, capitals f.2))
    (by
      intro p hp
      rcases List.mem_cons.mp hp with rfl | hp
      · exact hst
      · obtain ⟨f, hf, rfl⟩ := List.mem_map.mp hp
        exact ho f (List.mem_append_left _ hf))
  have hg := fun i => applyAll_other buf after (gs.map fun f => (capitals f.1, capitals f.2)) i []
    (by
      intro p hp
      obtain ⟨f, hf, rfl⟩ := List.mem_map.mp hp
      exact ho f (List.mem_append_right _ hf))
  have hrd := read_header h ((d :: ds).flatMap chunk ++ (hexNumber 0 ++ crlf ++ crlf)) after n hr (by rw [htot]; exact hl)
    { dataStart := x.1
      params := (capitals status, []) :: (fs ++ f :: gs).map (fun f => (capitals f.1, capitals f.2))
      dataSize := x.2 }
    (by
      rw [htot]
      have := hi { dataStart := (header status (fs ++ f :: gs)).length
                   params := (capitals status, []) :: (fs ++ f :: gs).map (fun f => (capitals f.1, capitals f.2)) }
      rw [List.cons_append] at this
      conv at this => lhs; arg 3; arg 2; rw [← List.map_cons (f := fun f : List UInt8 × List UInt8 => (capitals f.1, capitals f.2)) (a := f), ← List.map_append]
      rw [this, applyAll, hap _ rfl rfl, Res.bind_ok]
      have := hg { dataStart := x.1
                   params := (capitals status, []) :: (fs ++ f :: gs).map (fun f => (capitals f.1, capitals f.2))
                   dataSize := x.2 }
      rw [List.append_nil] at this
      rw [this]
      rfl)
  rw [htot] at hrd
  refine ⟨_, hrd, ?_⟩
  have hcc := contains_iff (ascii "200 OK") (capitals status)
  have hd0 : d.length ≠ 0 := by simpa using (hd d List.mem_cons_self).1
  unfold says200
  rw [← hcc, hr4]
  by_cases hu : contains (ascii "200 OK") (capitals status) = true <;> simp [hd0, hu]

private def exChunked : List (List UInt8 × List UInt8) := [(ascii "transfer-encoding", ascii "chunked")]

example : ∃ i, read 9 (header exStatus exChunked ++ ascii "f\r\nd8:completei2ee\r\n1\r\nx\r\n0\r\n\r\n") [] = .ok i ∧
    i.dataStart = 50 ∧ i.dataSize = 15 := Res.exists_ok (by decide +kernel)

/-- C43 is false for a body in several chunks: the size reported is that of the first chunk only. -/
theorem C43_chunks_violated {status : List UInt8} {f : List UInt8 × List UInt8} (h : GoodHeader status [f]) (hn : named f "TRANSFER-ENCODING") (hc : capitals f.2 = ascii "CHUNKED")
    {d : List UInt8} {ds : List (List UInt8)} (hd : ∀ x ∈ d :: ds, x ≠ [] ∧ OneLine x) (hds : ds ≠ []) (after : List UInt8)
    (hl : (header status [f] ++ ((d :: ds).flatMap chunk ++ (ascii "0" ++ crlf ++ crlf))).length < 4294967296) (n : Nat) (hr : 3 ≤ n) :
    ∃ i, read n (header status [f] ++ ((d :: ds).flatMap chunk ++ (ascii "0" ++ crlf ++ crlf))) after = .ok i ∧ i.valid = true ∧ i.dataSize < (d :: ds).flatten.length := by
  obtain ⟨i, h1, h2, h3, h4, h5⟩ := C43_chunked_partial (fs := []) (gs := []) h hn hc (by intro f hf; cases hf) hd after hl n hr
  refine ⟨i, h1, h4, ?_⟩
  rw [h3]
  match ds, hds with
  | e :: ds, _ =>
    have : 0 < e.length := List.length_pos_iff.mpr (hd e (by simp)).1
    simp only [List.flatten_cons, List.length_append]
    omega

/-- C43 (partial: false for incomplete headers, see `C43_prefix_violated`): a received reply with an empty line in it is read in finite time. -/
theorem C43_terminates_partial (x y after : List UInt8) : ∃ n, ∀ m ≥ n, read m (x ++ crlf ++ crlf ++ y) after ≠ .diverge := by
  refine ⟨(x ++ crlf ++ crlf ++ y).length + 1, fun m hm => ?_⟩
  unfold Http.read
  split
  · exact ok_nd _
  · obtain ⟨r, hr⟩ := lines_terminates (x ++ crlf ++ crlf ++ y).length m (x ++ crlf ++ crlf ++ y) [] (Or.inr ⟨x, y, by simp [crlf]⟩) (by omega)
    rw [hr, Res.bind_ok]
    refine bind_nd (applyAll_nd _ _ _ _) fun i _ => ?_
    simp only
    split <;> exact ok_nd _

/-- C43 is false for headers that have arrived in part: if of the last line received there are two bytes or
more but not its end, reading does not end, whatever lines came before. -/
theorem C43_prefix_violated (ls : List (List UInt8)) (p after : List UInt8) (hls : ∀ l ∈ ls, l ≠ [] ∧ OneLine l) (hp : OneLine p) (h2 : 2 ≤ p.length)
    (hh : (ls.flatMap (fun l => l ++ crlf) ++ p).take 4 = ascii "HTTP") (n : Nat) :
    read n (ls.flatMap (fun l => l ++ crlf) ++ p) after = .diverge := by
  have h4 : (ls.flatMap (fun l => l ++ crlf) ++ p).length ≥ 4 := by
    have := congrArg List.length hh
    rw [List.length_take] at this
    have h2 : (ascii "HTTP").length = 4 := by decide
    omega
  have hlines : ∀ (ls : List (List UInt8)) (n : Nat) (ps : List (List UInt8 × List UInt8)) (size : Nat), (∀ l ∈ ls, l ≠ [] ∧ OneLine l) →
      lines size n (ls.flatMap (fun l => l ++ crlf) ++ p) ps = .diverge := by
    intro ls
    induction ls with
    | nil => intro n ps size _; simpa using lines_stuck size p hp h2 n ps
    | cons l ls ih =>
      intro n ps size h
      cases n with
      | zero => rw [lines]
      | succ n =>
        obtain ⟨h1, h2⟩ := h l List.mem_cons_self
        have := lines_line size n l (ls.flatMap (fun l => l ++ crlf) ++ p) ps h1 h2
        have he : (l :: ls).flatMap (fun l => l ++ crlf) ++ p = l ++ 13 :: 10 :: (ls.flatMap (fun l => l ++ crlf) ++ p) := by simp [crlf]
        rw [he, this]
        exact ih n _ size fun x hx => h x (List.mem_cons_of_mem _ hx)
  unfold Http.read
  rw [if_neg (by intro hc; rcases hc with hc | hc; omega; exact hc (Or.inl hh)), hlines ls n [] _ hls, Res.bind_diverge]

example : read 100 (ascii "HTTP/1.1 200 OK" ++ crlf ++ ascii "Conten") [] = .diverge := by decide +kernel

/-- C43 is false for "name:value" lines without a space: the first byte of the value is not reported. -/
theorem C43_space_violated {status name value : List UInt8} {c : UInt8} (h : GoodHeader status []) (hc : chr ':' ∉ name) (ho : OneLine (name ++ chr ':' :: c :: value))
    (hn : ¬named (name, value) "CONTENT-LENGTH" ∧ ¬named (name, value) "TRANSFER-ENCODING") (after : List UInt8) (n : Nat) (h3 : 3 ≤ n) :
    ∃ i, read n (status ++ crlf ++ (name ++ chr ':' :: c :: value) ++ crlf ++ crlf) after = .ok i ∧
      i.params = [(capitals status, []), (capitals name, capitals value)] := by
  have hp : param (name ++ chr ':' :: c :: value) = (name, value) := by
    unfold param
    rw [findByte_some _ _ _ hc]
    simp only
    rw [if_pos (by simp), List.take_left' rfl]
    congr 1
    rw [← List.drop_drop, List.drop_left' rfl]
    rfl
  have hg := good_lines h
  have h4 : 4 ≤ status.length := by
    have := congrArg List.length h.http
    rw [List.length_take] at this
    have h2 : (ascii "HTTP").length = 4 := by decide
    omega
  have he : status ++ crlf ++ (name ++ chr ':' :: c :: value) ++ crlf ++ crlf =
      [status, name ++ chr ':' :: c :: value].flatMap (fun l => l ++ crlf) ++ (13 :: 10 :: []) := by simp [crlf]
  obtain ⟨m, rfl⟩ : ∃ m, n = m + 1 + 2 := ⟨n - 3, by omega⟩
  have hl := lines_all (status ++ crlf ++ (name ++ chr ':' :: c :: value) ++ crlf ++ crlf).length [status, name ++ chr ':' :: c :: value] (m + 1) (13 :: 10 :: []) [] (by
    intro l hl
    simp only [List.mem_cons, List.not_mem_nil, or_false] at hl
    rcases hl with rfl | rfl
    · exact hg _ List.mem_cons_self
    · exact ⟨by simp, ho⟩)
  rw [← he, lines_end, List.nil_append] at hl
  simp only [List.map_cons, List.map_nil, hp, param_status h.colon] at hl
  have hst := status_name h
  have htake : (status ++ crlf ++ (name ++ chr ':' :: c :: value) ++ crlf ++ crlf).take 4 = ascii "HTTP" := by
    rw [← h.http]
    simp only [List.append_assoc]
    rw [List.take_append_of_le_length h4]
  generalize hbuf : status ++ crlf ++ (name ++ chr ':' :: c :: value) ++ crlf ++ crlf = buf at *
  generalize (buf.length - ([] : List UInt8).length) % 4294967296 = st at hl
  have hr := read_of_lines htake rfl hl (after := after) (i := { dataStart := st, params := [(capitals status, []), (capitals name, capitals value)] }) (by
    have := applyAll_other buf after [(capitals status, []), (capitals name, capitals value)]
      { dataStart := st, params := [(capitals status, []), (capitals name, capitals value)] } [] (by
        intro p hp
        simp only [List.mem_cons, List.not_mem_nil, or_false] at hp
        rcases hp with rfl | rfl
        · exact hst
        · exact hn)
    rw [List.append_nil] at this
    exact this)
  refine ⟨_, hr, ?_⟩
  simp only
  split <;> split <;> rfl

example : ∃ i, read 9 (ascii "HTTP/1.1 200 OK" ++ crlf ++ (ascii "Etag" ++ chr ':' :: chr '7' :: ascii "1") ++ crlf ++ crlf) [] = .ok i ∧
    i.params[1]? = some (ascii "ETAG", ascii "1") := Res.exists_ok (by decide +kernel)

/-- C43 is false for values with small letters: they are reported in capitals, so the path of a location is
lost. -/
theorem C43_case_violated : ∃ i, read 9 (ascii "HTTP/1.1 200 OK\r\nLocation: http://10.0.0.1:80/rootDesc.xml\r\n\r\n") [] = .ok i ∧
    i.params[1]? = some (ascii "LOCATION", ascii "HTTP://10.0.0.1:80/ROOTDESC.XML") := Res.exists_ok (by decide +kernel)

/-- C43 is false for a length that is not a number: the exception of `std::stoul` is not caught. -/
theorem C43_number_violated : read 9 (ascii "HTTP/1.1 200 OK\r\nContent-Length: none\r\n\r\n") [] = .ub := by decide +kernel

/-- C43 is false for a chunked body that has arrived in part: the size of the next chunk is read from behind
the buffer. -/
theorem C43_chunk_memory_violated : read 9 (ascii "HTTP/1.1 200 OK\r\nTransfer-Encoding: chunked\r\n\r\n1f") [] = .ub := by decide +kernel

end Verif

import Verif.Lookup.Model
import Verif.Dns.DnsProps
import Verif.Net.InetProps

/-!
# C125: looking up hosts through DNS
-/

namespace Verif.Lookup
open Verif.Net Verif.Dns

/-! ## Specification -/

/-- A host name: labels of 1 to 63 ASCII bytes without dots and spaces. -/
def HostName (host : List UInt8) (ls : List (List UInt8)) : Prop :=
  host = dots ls ∧ ls ≠ [] ∧ ∀ l ∈ ls, l ≠ [] ∧ l.length ≤ 63 ∧ 0x2E ∉ l ∧ ∀ b ∈ l, 0x21 ≤ b ∧ b < 0x80

/-- The addresses in an answer: the data of the records of type A and class IN, in their order. -/
def addresses (d : Dns) : List (List UInt8) := (d.answers.filter fun a => a.atype = 1 ∧ a.aclass = 1 ∧ a.data.length = 4).map (·.data)

/-- A name as it is encoded: every label behind its length, then a zero. -/
def encoded (ls : List (List UInt8)) : List UInt8 := ls.flatMap (fun l => UInt8.ofNat l.length :: l) ++ [0]

/-- The server is at `a.b.c.d` and answers with `data`, on a new socket `fd`. -/
structure Works (w : World) (a b c d : UInt8) (fd : Nat) (data : List UInt8) : Prop where
  server : ∃ s, w.server = .ok s ∧ Quad s a.toNat b.toNat c.toNat d.toNat
  socket : w.socket = some fd
  connect : w.connect = true
  send : w.send = true
  reply : w.reply = .packet data

/-! ## Lemmas -/

theorem dropWhile_none {s : List UInt8} (h : ∀ b ∈ s, isSpace b = false) : s.dropWhile isSpace = s := by
  cases s with
  | nil => rfl
  | cons b t => rw [List.dropWhile_cons, h b (by simp)]; rfl

theorem trim_none {s : List UInt8} (h : ∀ b ∈ s, isSpace b = false) : trim s = s := by
  unfold trim
  rw [dropWhile_none h, dropWhile_none (fun b hb => h b (List.mem_reverse.1 hb)), List.reverse_reverse]

theorem not_space {b : UInt8} (h : 0x21 ≤ b) : isSpace b = false := by
  have : 0x21 ≤ b.toNat := UInt8.le_iff_toNat_le.1 h
  unfold isSpace
  rw [Bool.or_eq_false_iff, Bool.and_eq_false_iff]
  constructor
  · apply beq_false_of_ne
    rintro rfl
    simp at this
  · right
    apply decide_eq_false
    intro h'
    have := UInt8.le_iff_toNat_le.1 h'
    simp at this
    omega

theorem numeral_space {w : List UInt8} {v : Nat} (h : Numeral 10 w v) : ∀ b ∈ w, isSpace b = false := by
  intro b hb
  obtain ⟨d, hd⟩ := h.mem hb
  exact not_space (UInt8.le_iff_toNat_le.2 (by have := hd.ge.1; simp; omega))

theorem quad_split {s : List UInt8} {a b c d : Nat} (h : Quad s a b c d) :
    (∀ x ∈ s, isSpace x = false) ∧ ∃ wa wb wc wd, split 0x2E s = [wa, wb, wc, wd] ∧ Octet wa a ∧ Octet wb b ∧ Octet wc c ∧ Octet wd d := by
  obtain ⟨wa, wb, wc, wd, rfl, ha, hb, hc, hd⟩ := h
  have z : (0x2E : UInt8).toNat < 0x30 := by decide
  constructor
  · intro x hx
    simp only [List.mem_append, List.mem_singleton] at hx
    rcases hx with (((((h | h) | h) | h) | h) | h) | h
    · exact numeral_space ha.1 x h
    · subst h; decide
    · exact numeral_space hb.1 x h
    · subst h; decide
    · exact numeral_space hc.1 x h
    · subst h; decide
    · exact numeral_space hd.1 x h
  · refine ⟨wa, wb, wc, wd, ?_, ha, hb, hc, hd⟩
    simp only [List.append_assoc, List.singleton_append, List.cons_append, List.nil_append]
    rw [split_cons (ha.not_mem z), split_cons (hb.not_mem z), split_cons (hc.not_mem z), split_word (hd.not_mem z)]

theorem octet_of {w : List UInt8} {v : UInt8} (h : Octet w v.toNat) : octet w = v := by
  unfold octet
  rw [fromStr_of (by decide) (by decide) h.1 v.toNat_lt]
  simp

theorem parse_quad {s : List UInt8} {a b c d : UInt8} (h : Quad s a.toNat b.toNat c.toNat d.toNat) : parseIpv4 s = some [a, b, c, d] := by
  obtain ⟨hs, wa, wb, wc, wd, e, ha, hb, hc, hd⟩ := quad_split h
  unfold parseIpv4
  rw [trim_none hs, e]
  simp [octet_of ha, octet_of hb, octet_of hc, octet_of hd]

theorem parse_host {host : List UInt8} {ls : List (List UInt8)} (h : HostName host ls) (hn : ls.length ≠ 4) : parseIpv4 host = none := by
  obtain ⟨rfl, hne, hls⟩ := h
  have hs : ∀ x ∈ dots ls, isSpace x = false := by
    intro x hx
    rcases mem_intercalate hx with rfl | ⟨w, hw, hx⟩
    · decide
    · exact not_space ((hls w hw).2.2.2 x hx).1
  unfold parseIpv4
  rw [trim_none hs, show split 0x2E (dots ls) = ls from split_intercalate hne (fun l hl => (hls l hl).2.2.1)]
  simp [hn]

theorem good_of {host : List UInt8} {ls : List (List UInt8)} (h : HostName host ls) (t : UInt16) : (⟨host, t, 1⟩ : Query).Good :=
  ⟨ls, h.1, h.2.1, fun l hl => ⟨(h.2.2 l hl).1, (h.2.2 l hl).2.1, (h.2.2 l hl).2.2.1, fun b hb => ((h.2.2 l hl).2.2.2 b hb).2⟩⟩

theorem query_message {host : List UInt8} {ls : List (List UInt8)} (h : HostName host ls) (nsec : Nat) (t : UInt16) :
    Message (query nsec host t) ⟨UInt16.ofNat (nsec >>> 16), 0x0100, [⟨host, t, 1⟩], []⟩ :=
  C47_compile_partial (by intro q hq; rw [List.mem_singleton.1 hq]; exact good_of h t) (by show 1 < 65536; decide) rfl

theorem ask_works {α : Type} {w : World} {a b c d : UInt8} {fd : Nat} {data : List UInt8} (hw : Works w a b c d fd data) {r : Dns} (hr : Message data r)
    (name : List UInt8) (t : UInt16) (f : List Answer → Res α) : ask w name t f = ⟨f r.answers, [([a, b, c, d], query w.nsec name t)], [fd]⟩ := by
  obtain ⟨s, hs, hq⟩ := hw.server
  unfold ask
  rw [hs]
  dsimp only
  rw [parse_quad hq]
  dsimp only
  have he : exchange w [a, b, c, d] (query w.nsec name t) = ⟨.ok data, [([a, b, c, d], query w.nsec name t)], [fd]⟩ := by
    simp [exchange, hw.socket, hw.connect, hw.send, hw.reply]
  rw [he]
  unfold respond
  dsimp only
  rw [C47_parse_partial hr]

/-! ### Names in answers -/

/-- The labels with a dot behind each. -/
def dotted (ls : List (List UInt8)) : List UInt8 := ls.flatMap (· ++ [0x2E])

theorem dotted_dots (ls : List (List UInt8)) (h : ls ≠ []) : dotted ls = dots ls ++ [0x2E] := by
  unfold dotted dots
  induction ls with
  | nil => exact absurd rfl h
  | cons l ls ih =>
    cases ls with
    | nil => simp [List.intercalate]
    | cons l' ls =>
      rw [List.flatMap_cons, ih (by simp)]
      simp [List.intercalate, List.intersperse]

theorem encoded_cons (l : List UInt8) (ls : List (List UInt8)) : encoded (l :: ls) = UInt8.ofNat l.length :: l ++ encoded ls := by
  simp [encoded]

theorem encoded_length (ls : List (List UInt8)) : (encoded ls).length = (dotted ls).length + 1 := by
  induction ls with
  | nil => rfl
  | cons l ls ih =>
    rw [encoded_cons]
    simp only [List.length_append, List.length_cons, ih, dotted, List.flatMap_cons, List.length_nil]
    omega

theorem encoded_ne (ls : List (List UInt8)) : encoded ls ≠ [] := by simp [encoded]

/-- The loop over the labels that are left. `pre` is what has been read, with dots; the output has it in front. -/
theorem revLoop_labels (data : List UInt8) : ∀ (ls : List (List UInt8)) (pre : List UInt8) (raw : List UInt8), (∀ l ∈ ls, l.length ≤ 63) →
    data = raw ++ encoded ls → raw.length = pre.length → revLoop data (pre ++ (encoded ls).tail) pre.length = .done (pre ++ dotted ls) := by
  intro ls
  induction ls with
  | nil =>
    intro pre raw _ hd hr
    unfold revLoop
    rw [if_neg (by rw [hd]; simp [encoded]; omega)]
    rfl
  | cons l ls ih =>
    intro pre raw hl hd hr
    have hlen := encoded_length ls
    have hdl : data.length = pre.length + (1 + l.length + (encoded ls).length) := by
      rw [hd, encoded_cons]; simp; omega
    have hpos : 0 < (encoded ls).length := by omega
    have hb : data.getD pre.length 0 = UInt8.ofNat l.length := by
      rw [hd, encoded_cons, ← hr]
      simp [List.getD]
    have hl63 := hl l (by simp)
    have hto : (UInt8.ofNat l.length).toNat = l.length := by
      rw [UInt8.toNat_ofNat']
      omega
    unfold revLoop
    rw [if_pos (by omega), hb, hto]
    dsimp only
    rw [if_neg (by omega), encoded_cons, List.cons_append, List.tail_cons]
    obtain ⟨x, t, hx⟩ := List.exists_cons_of_ne_nil (encoded_ne ls)
    rw [if_neg (by simp; omega)]
    have hset : (pre ++ (l ++ encoded ls)).set (pre.length + l.length) 0x2E = (pre ++ (l ++ [0x2E])) ++ (encoded ls).tail := by
      rw [hx, ← List.append_assoc, show pre.length + l.length = (pre ++ l).length by simp, List.set_append_right _ _ (by omega)]
      simp
    rw [hset, show pre.length + l.length + 1 = (pre ++ (l ++ [0x2E])).length by simp; omega]
    rw [ih (pre ++ (l ++ [0x2E])) (raw ++ (UInt8.ofNat l.length :: l)) (fun x hx => hl x (by simp [hx])) (by rw [hd, encoded_cons]; simp) (by simp; omega)]
    simp [dotted]

theorem revdns_encoded {ls : List (List UInt8)} (hne : ls ≠ []) (h : ∀ l ∈ ls, l ≠ [] ∧ l.length ≤ 63) : revdns (encoded ls) = some (dots ls ++ [0]) := by
  have hloop := revLoop_labels (encoded ls) ls [] [] (fun l hl => (h l hl).2) rfl rfl
  unfold revdns
  have h0 : ¬ (encoded ls = [] ∨ (encoded ls).head? = some 0) := by
    cases ls with
    | nil => exact absurd rfl hne
    | cons l ls =>
      rw [encoded_cons]
      obtain ⟨h1, h2⟩ := h l (by simp)
      have := (label_byte (n := l.length) (by simpa using h1) h2).2.1
      simpa using this
  rw [if_neg h0, show (encoded ls).tail = [] ++ (encoded ls).tail from rfl, show (0 : Nat) = ([] : List UInt8).length from rfl, hloop]
  dsimp only
  rw [List.nil_append, dotted_dots ls hne, if_neg (by simp)]
  simp [List.set_append_right]

theorem revAll_map {ds : List (List UInt8)} {ns : List (List UInt8)} (h : ds.map revdns = ns.map some) : revAll ds = some ns := by
  induction ds generalizing ns with
  | nil => cases ns with
    | nil => rfl
    | cons => cases h
  | cons d ds ih =>
    cases ns with
    | nil => cases h
    | cons n ns =>
      injection h with h1 h2
      simp only [revAll, h1, ih h2]

/-! ## C125 -/

/-- C125: **an address in decimal dotted notation** is that address; nothing is sent and no descriptor opened. -/
theorem C125_quad (w : World) (s : List UInt8) (a b c d : UInt8) (h : Quad s a.toNat b.toNat c.toNat d.toNat) : lookupHost w s = ⟨.ok [[a, b, c, d]], [], []⟩ := by
  unfold lookupHost
  rw [parse_quad h]

example : lookupHost ⟨.error 2, 0, none, true, true, .lost⟩ (quadText 10 0 2 15) = ⟨.ok [[10, 0, 2, 15]], [], []⟩ :=
  C125_quad _ _ 10 0 2 15 (quadText_quad 10 0 2 15)

/-- C125, part: **a host name** is asked for once at the server named in the file, with one question for its address; the result is the addresses in the answer, in their order. Missing: names of four labels, the socket is
left open, the answer is not compared with the question. -/
theorem C125_host_partial (w : World) (host : List UInt8) (ls : List (List UInt8)) (a b c d : UInt8) (fd : Nat) (data : List UInt8) (r : Dns) (hh : HostName host ls) (hn : ls.length ≠ 4)
    (hw : Works w a b c d fd data) (hr : Message data r) :
    ∃ q, Message q ⟨UInt16.ofNat (w.nsec / 65536), 0x0100, [⟨host, 1, 1⟩], []⟩ ∧ (lookupHost w host).res = .ok (addresses r) ∧ (lookupHost w host).sent = [([a, b, c, d], q)] := by
  refine ⟨query w.nsec host 1, ?_, ?_⟩
  · have := query_message hh w.nsec 1
    rw [Nat.shiftRight_eq_div_pow] at this
    exact this
  · have he : lookupHost w host = ⟨.ok (addresses r), [([a, b, c, d], query w.nsec host 1)], [fd]⟩ := by
      unfold lookupHost
      rw [parse_host hh hn]
      dsimp only
      rw [ask_works hw hr]
      have e : (r.answers.filter fun a => a.atype == 1 && a.aclass == 1 && a.data.length == 4) = r.answers.filter fun a => a.atype = 1 ∧ a.aclass = 1 ∧ a.data.length = 4 := by
        congr 1
        funext a
        rw [Bool.eq_iff_iff]
        simp [and_assoc]
      unfold addresses
      rw [e]
    rw [he]
    exact ⟨rfl, rfl⟩

/-- C125: **failures**: without socket, connection, or if sending or receiving fails, the result is `EIO`; an address of the server that is not one is `EINVAL`; an error of the file is passed on. -/
theorem C125_failures (w : World) (host : List UInt8) (ls : List (List UInt8)) (hh : HostName host ls) (hn : ls.length ≠ 4) :
    (∀ e, w.server = .error e → (lookupHost w host).res = .err (.file e))
    ∧ (∀ s a b c d, w.server = .ok s → Quad s (UInt8.toNat a) (UInt8.toNat b) (UInt8.toNat c) (UInt8.toNat d) → (w.socket = none ∨ w.connect = false ∨ w.send = false ∨ w.reply = .failed) → (lookupHost w host).res = .err .EIO
        ∨ w.reply = .lost)
    ∧ (∀ s, w.server = .ok s → (trim s).count 0x2E ≠ 3 → (lookupHost w host).res = .err .EINVAL) := by
  have hp := parse_host hh hn
  refine ⟨fun e he => ?_, fun s a b c d hs hq hf => ?_, fun s hs hc => ?_⟩
  · simp [lookupHost, hp, ask, he]
  · by_cases hl : w.reply = .lost
    · exact .inr hl
    · left
      unfold lookupHost
      rw [hp]
      simp only [ask, hs, parse_quad hq]
      have hx : (exchange w [a, b, c, d] (query w.nsec host 1)).res = .err .EIO := by
        unfold exchange
        cases h1 : w.socket with
        | none => rfl
        | some fd =>
          cases h2 : w.connect
          · rfl
          · cases h3 : w.send
            · rfl
            · rcases hf with h | h | h | h
              · rw [h] at h1; cases h1
              · rw [h] at h2; cases h2
              · rw [h] at h3; cases h3
              · simp [h]
      unfold respond
      rw [hx]
  · unfold lookupHost
    rw [hp]
    simp only [ask, hs]
    have : parseIpv4 s = none := by
      unfold parseIpv4
      have hlen : ∀ t : List UInt8, (split 0x2E t).length = t.count 0x2E + 1 := by
        intro t
        induction t with
        | nil => rfl
        | cons b t ih =>
          rw [split]
          by_cases hb : b = 0x2E
          · rw [if_pos hb, List.length_cons, ih, hb, List.count_cons_self]
          · rw [if_neg hb, List.count_cons_of_ne (fun h => hb h)]
            cases hsp : split 0x2E t with
            | nil => exact absurd hsp (split_ne _ _)
            | cons w ws => rw [← ih, hsp]; rfl
      dsimp only
      rw [if_pos (by rw [List.length_map, hlen]; omega)]
    rw [this]

/-- C125, part: **the name of an address** is asked for with one question for `d.c.b.a.in-addr.arpa`; the result is the names in the answer, each with a NUL byte, in their order, if the answer gives them without
pointers. Missing: names with pointers, malformed names, the open socket. -/
theorem C125_addr_partial (w : World) (x y z t : UInt8) (a b c d : UInt8) (fd : Nat) (data : List UInt8) (r : Dns) (hw : Works w a b c d fd data) (hr : Message data r)
    (names : List (List (List UInt8))) (hn : ((r.answers.filter fun a => a.atype = 12 ∧ a.aclass = 1).map (·.data)) = names.map encoded)
    (hl : ∀ ls ∈ names, ls ≠ [] ∧ ∀ l ∈ ls, l ≠ [] ∧ l.length ≤ 63) :
    ∃ q, Message q ⟨UInt16.ofNat (w.nsec / 65536), 0x0100, [⟨quadText t z y x ++ [0x2E, 0x69, 0x6E, 0x2D, 0x61, 0x64, 0x64, 0x72, 0x2E, 0x61, 0x72, 0x70, 0x61], 12, 1⟩], []⟩
      ∧ (lookupAddr w x y z t).res = .ok (names.map fun ls => dots ls ++ [0]) ∧ (lookupAddr w x y z t).sent = [([a, b, c, d], q)] := by
  have hdec : ∀ b : UInt8, dec b = Stdio.numeral 10 false b.toNat := fun b => Stdio.digitsOf_eq (by decide) (by decide) false b.toNat
  have hname : revName x y z t = quadText t z y x ++ [0x2E, 0x69, 0x6E, 0x2D, 0x61, 0x64, 0x64, 0x72, 0x2E, 0x61, 0x72, 0x70, 0x61] := by
    unfold revName quadText
    simp only [hdec, inAddrArpa]
  have hlab : ∀ b : UInt8, dec b ≠ [] ∧ (dec b).length ≤ 63 ∧ 0x2E ∉ dec b ∧ ∀ x ∈ dec b, 0x21 ≤ x ∧ x < 0x80 := by
    have key : ∀ n, n < 256 → let s := Stdio.digitsOf 10 false n; s ≠ [] ∧ s.length ≤ 63 ∧ 0x2E ∉ s ∧ ∀ x ∈ s, 0x21 ≤ x ∧ x < 0x80 := by decide +kernel
    exact fun b => key b.toNat b.toNat_lt
  have hhost : HostName (revName x y z t) [dec t, dec z, dec y, dec x, [0x69, 0x6E, 0x2D, 0x61, 0x64, 0x64, 0x72], [0x61, 0x72, 0x70, 0x61]] := by
    refine ⟨by simp [revName, dots, inAddrArpa, List.intercalate, List.intersperse], by simp, fun l hl => ?_⟩
    simp only [List.mem_cons, List.not_mem_nil, or_false] at hl
    rcases hl with rfl | rfl | rfl | rfl | rfl | rfl
    · exact hlab _
    · exact hlab _
    · exact hlab _
    · exact hlab _
    · decide
    · decide
  refine ⟨query w.nsec (revName x y z t) 12, ?_, ?_⟩
  · have := query_message hhost w.nsec 12
    rw [Nat.shiftRight_eq_div_pow, hname] at this
    rw [hname]
    exact this
  · have hrev : revAll ((r.answers.filter fun a => a.atype == 12 && a.aclass == 1).map (·.data)) = some (names.map fun ls => dots ls ++ [0]) := by
      apply revAll_map
      have e : (r.answers.filter fun a => a.atype == 12 && a.aclass == 1) = r.answers.filter fun a => a.atype = 12 ∧ a.aclass = 1 := by
        congr 1
        funext a
        rw [Bool.eq_iff_iff]
        simp
      rw [e, hn, List.map_map, List.map_map]
      apply List.map_congr_left
      intro ls hls
      exact revdns_encoded (hl ls hls).1 (hl ls hls).2
    have he : lookupAddr w x y z t = ⟨.ok (names.map fun ls => dots ls ++ [0]), [([a, b, c, d], query w.nsec (revName x y z t) 12)], [fd]⟩ := by
      unfold lookupAddr
      rw [ask_works hw hr]
      simp only [hrev]
    rw [he]
    exact ⟨rfl, rfl⟩

/-- "dns.google" as in an answer. -/
example : revdns (encoded [[0x64, 0x6E, 0x73], [0x67, 0x6F, 0x6F, 0x67, 0x6C, 0x65]]) = some ([0x64, 0x6E, 0x73, 0x2E, 0x67, 0x6F, 0x6F, 0x67, 0x6C, 0x65] ++ [0]) := by decide +kernel

/-- C125, violated by the code: **a name of four labels is taken for an address**: whatever the server would say, the address of `www.bbc.co.uk` is 0.0.0.0. -/
theorem C125_labels_violation (w : World) : lookupHost w [0x77, 0x77, 0x77, 0x2E, 0x62, 0x62, 0x63, 0x2E, 0x63, 0x6F, 0x2E, 0x75, 0x6B] = ⟨.ok [[0, 0, 0, 0]], [], []⟩ := by
  unfold lookupHost
  rw [show parseIpv4 [0x77, 0x77, 0x77, 0x2E, 0x62, 0x62, 0x63, 0x2E, 0x63, 0x6F, 0x2E, 0x75, 0x6B] = some [0, 0, 0, 0] by decide +kernel]

/-- C125, violated by the code: **the socket stays open**, after success and after every failure behind `socket`. -/
theorem C125_leak_violation (w : World) (host : List UInt8) (ls : List (List UInt8)) (a b c d : UInt8) (fd : Nat) (s : List UInt8) (hh : HostName host ls) (hn : ls.length ≠ 4)
    (hs : w.server = .ok s) (hq : Quad s a.toNat b.toNat c.toNat d.toNat) (hf : w.socket = some fd) : (lookupHost w host).leaves = [fd] := by
  unfold lookupHost
  rw [parse_host hh hn]
  simp only [ask, hs, parse_quad hq]
  have hx : ∃ r l, exchange w [a, b, c, d] (query w.nsec host 1) = ⟨r, l, [fd]⟩ := by
    unfold exchange
    rw [hf]
    dsimp only
    repeat' split
    all_goals exact ⟨_, _, rfl⟩
  obtain ⟨r, l, hx⟩ := hx
  rw [hx]
  unfold respond
  dsimp only
  repeat' split
  all_goals rfl

/-- C125, violated by the code: **any packet is taken for the answer**: the result does not depend on the number or the question in it. Two answers with the same records give the same result. -/
theorem C125_id_violation (w : World) (host : List UInt8) (ls : List (List UInt8)) (a b c d : UInt8) (fd : Nat) (data : List UInt8) (r : Dns) (hh : HostName host ls) (hn : ls.length ≠ 4)
    (hw : Works w a b c d fd data) (hr : Message data r) (_hid : r.id ≠ UInt16.ofNat (w.nsec / 65536)) : (lookupHost w host).res = .ok (addresses r) :=
  (C125_host_partial w host ls a b c d fd data r hh hn hw hr).elim fun _ h => h.2.1

/-- The hypotheses of `C125_id_violation` hold for a packet with another number and another question: number 7, `x`, address 6.6.6.6. -/
example : Message [0, 7, 0x81, 0x80, 0, 1, 0, 1, 0, 0, 0, 0, 1, 0x78, 0, 0, 1, 0, 1, 0xC0, 12, 0, 1, 0, 1, 0, 0, 0, 9, 0, 4, 6, 6, 6, 6]
    ⟨7, 0x8180, [⟨[0x78], 1, 1⟩], [⟨[0x78], 1, 1, 0, 9, [6, 6, 6, 6]⟩]⟩ := by
  refine ⟨by decide, ⟨0, 7, ⟨_, rfl⟩, by decide⟩, ⟨0x81, 0x80, ⟨_, rfl⟩, by decide⟩, ⟨1, ⟨0, 1, ⟨_, rfl⟩, by decide⟩, rfl⟩, ⟨1, ⟨0, 1, ⟨_, rfl⟩, by decide⟩, rfl⟩, 19, 35, ?_, ?_⟩
  · have := Queries.cons (data := [0, 7, 0x81, 0x80, 0, 1, 0, 1, 0, 0, 0, 0, 1, 0x78, 0, 0, 1, 0, 1, 0xC0, 12, 0, 1, 0, 1, 0, 0, 0, 9, 0, 4, 6, 6, 6, 6]) (i := 12) (k := 15) (e := 19) (ls := [[0x78]]) (t := 1) (c := 1)
      (.inline (.label (by decide) (by decide) ⟨_, rfl⟩ (.root ⟨_, rfl⟩))) ⟨0, 1, ⟨_, rfl⟩, by decide⟩ ⟨0, 1, ⟨_, rfl⟩, by decide⟩ (.nil 19)
    exact this
  · have := Answers.cons (data := [0, 7, 0x81, 0x80, 0, 1, 0, 1, 0, 0, 0, 0, 1, 0x78, 0, 0, 1, 0, 1, 0xC0, 12, 0, 1, 0, 1, 0, 0, 0, 9, 0, 4, 6, 6, 6, 6]) (i := 19) (k := 21) (e := 35) (ls := [[0x78]]) (t := 1) (c := 1) (a := 0) (b := 9)
      (n := 4) (d := [6, 6, 6, 6]) (.pointer (p := 12) (e := 15) ⟨by decide, ⟨_, rfl⟩⟩ (.label (by decide) (by decide) ⟨_, rfl⟩ (.root ⟨_, rfl⟩)) (by decide))
      ⟨0, 1, ⟨_, rfl⟩, by decide⟩ ⟨0, 1, ⟨_, rfl⟩, by decide⟩ ⟨0, 0, ⟨_, rfl⟩, by decide⟩ ⟨0, 9, ⟨_, rfl⟩, by decide⟩ ⟨0, 4, ⟨_, rfl⟩, by decide⟩ rfl ⟨_, rfl⟩ (.nil 35)
    exact this

/-- C125, violated by the code: **a lost datagram**: the question is not repeated, and the call does not return. -/
theorem C125_lost_violation (w : World) (host : List UInt8) (ls : List (List UInt8)) (a b c d : UInt8) (fd : Nat) (s : List UInt8) (hh : HostName host ls) (hn : ls.length ≠ 4)
    (hs : w.server = .ok s) (hq : Quad s a.toNat b.toNat c.toNat d.toNat) (hf : w.socket = some fd) (hc : w.connect = true) (hse : w.send = true) (hr : w.reply = .lost) :
    (lookupHost w host).res = .hangs := by
  unfold lookupHost
  rw [parse_host hh hn]
  simp [ask, hs, parse_quad hq, exchange, hf, hc, hse, hr, respond]

/-- C125, violated by the code: **a malformed name crashes the caller**: a label that is longer than the record, or a record without the zero at the end. -/
theorem C125_panic_violation : revdns [1, 0x61, 3, 0x62] = none ∧ revdns [1, 0x61] = none := by decide +kernel

/-- C125, violated by the code: **a name with a pointer is empty**: `www` and a pointer to what stands at position 12. -/
theorem C125_pointer_violation : revdns [3, 0x77, 0x77, 0x77, 0xC0, 12] = some [0] := by decide +kernel

end Verif.Lookup

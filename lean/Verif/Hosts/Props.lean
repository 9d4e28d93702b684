import Verif.Hosts.Model
import Verif.Netdb.EntProps
import Verif.Lookup.Props
import Verif.Ctype.CaseProps
/-!
# `gethostbyname`, `gethostbyaddr` (C141)
-/

namespace Verif.Hosts
open Verif.Mem Verif.Netdb Verif.Net Verif.Dns Verif.Lookup

/-! ## Specification -/

/-- One of the names in the fields of a line (all but the first) is the name, upper and lower case letters being the same. -/
def Names (f : List (List UInt8)) (name : List UInt8) : Prop := ∃ x ∈ f.tail, x.map Str.lowerByte = name.map Str.lowerByte

/-- The first field of a line is an address, and the name of the line follows. -/
def Entry (f : List (List UInt8)) (a : Nat) (name : List UInt8) (aliases : List (List UInt8)) : Prop := ∃ t, f = t :: name :: aliases ∧ Address t a

/-- The file of hosts is fit to be read, and has no NUL byte. -/
structure Fit (w : World) : Prop where
  good : w.db.Good hosts
  nul : 0 ∉ w.db.k.data
  junk : w.junk.length = 4

/-- The entries of the file, as fields. -/
def World.lines (w : World) : List (List (List UInt8)) := (w.db.entries hosts 0).map fields

/-! ## Lemmas -/

theorem mem_fieldsAux {l acc : List UInt8} {x : List UInt8} (h : x ∈ fieldsAux acc l) {b : UInt8} (hb : b ∈ x) : b ∈ l ∨ b ∈ acc := by
  induction l generalizing acc with
  | nil =>
    unfold fieldsAux at h
    split at h
    · cases h
    · simp only [List.mem_singleton] at h
      subst h
      exact .inr (List.mem_reverse.1 hb)
  | cons c l ih =>
    unfold fieldsAux at h
    split at h
    · split at h
      · rcases ih h with q | q
        · exact .inl (by simp [q])
        · cases q
      · rcases List.mem_cons.1 h with q | q
        · subst q
          exact .inr (List.mem_reverse.1 hb)
        · rcases ih q with q | q
          · exact .inl (by simp [q])
          · cases q
    · rcases ih h with q | q
      · exact .inl (by simp [q])
      · rcases List.mem_cons.1 q with q | q
        · exact .inl (by simp [q])
        · exact .inr q

theorem mem_linesOf (n : Nat) {l x : List UInt8} (hn : l.length ≤ n) (h : x ∈ linesOf l) {b : UInt8} (hb : b ∈ x) : b ∈ l := by
  induction n generalizing l with
  | zero =>
    cases l with
    | nil => simp [linesOf] at h
    | cons c t => simp at hn
  | succ n ih =>
    cases l with
    | nil => simp [linesOf] at h
    | cons c t =>
      rw [linesOf] at h
      rcases List.mem_cons.1 h with q | q
      · subst q
        exact (List.takeWhile_sublist _).mem hb
      · exact List.mem_of_mem_drop (ih (by rw [List.length_drop]; simp at hn ⊢; omega) q)

theorem lines_nul {w : World} (h : Fit w) {f : List (List UInt8)} (hf : f ∈ w.lines) {x : List UInt8} (hx : x ∈ f) : 0 ∉ x := by
  intro h0
  unfold World.lines Db.entries at hf
  rw [List.drop_zero, List.mem_map] at hf
  obtain ⟨l, hl, rfl⟩ := hf
  rcases mem_fieldsAux hx h0 with q | q
  · exact h.nul (mem_linesOf _ (Nat.le_refl _) ((List.mem_filter.1 hl).1) q)
  · cases q

theorem same_iff {a b : List UInt8} (ha : 0 ∉ a) (hb : 0 ∉ b) : same a b = true ↔ a.map Str.lowerByte = b.map Str.lowerByte := by
  have hm := bytes_ofList 0 (a ++ [0] ++ (b ++ [0]))
  rw [bytes_append] at hm
  obtain ⟨h1, h2⟩ := hm
  have c1 : CStr (ofList 0 (a ++ [0] ++ (b ++ [0]))) 0 a := cstr_iff.2 ⟨h1, ha⟩
  have c2 : CStr (ofList 0 (a ++ [0] ++ (b ++ [0]))) (a.length + 1) b := cstr_iff.2 ⟨by simpa using h2, hb⟩
  obtain ⟨r, e, hr⟩ := Ctype.C50_equal _ _ _ _ _ c1 c2
  unfold same
  rw [e, ← hr]
  simp

theorem aton_address {junk t : List UInt8} {a : Nat} (hj : junk.length = 4) (h0 : 0 ∉ t) (h : Address t a) : aton junk t = netBytes a := by
  have hm := bytes_ofList 0 (t ++ [0] ++ junk)
  rw [bytes_append] at hm
  obtain ⟨h1, h2⟩ := hm
  have c1 : CStr (ofList 0 (t ++ [0] ++ junk)) 0 t := cstr_iff.2 ⟨h1, h0⟩
  have hmp : Mapped (ofList 0 (t ++ [0] ++ junk)) (t.length + 1) 4 := by
    have := h2.mapped
    rw [hj] at this
    simpa using this
  unfold aton
  rw [C41_aton c1 hmp h]
  dsimp only
  have := (bytes_patch (ofList 0 (t ++ [0] ++ junk)) (t.length + 1) (netBytes a)).readN
  rw [show (netBytes a).length = 4 from rfl] at this
  rw [this]
  rfl

theorem aton_other {junk t : List UInt8} (hj : junk.length = 4) (h0 : 0 ∉ t) (hp : 0x2B ∉ t) (h : ¬ ∃ a, Address t a) : aton junk t = junk := by
  have hm := bytes_ofList 0 (t ++ [0] ++ junk)
  rw [bytes_append] at hm
  obtain ⟨h1, h2⟩ := hm
  have c1 : CStr (ofList 0 (t ++ [0] ++ junk)) 0 t := cstr_iff.2 ⟨h1, h0⟩
  have hmp : Mapped (ofList 0 (t ++ [0] ++ junk)) (t.length + 1) 4 := by
    have := h2.mapped
    rw [hj] at this
    simpa using this
  unfold aton
  rw [C41_aton_partial c1 hmp hp h]
  dsimp only
  have h2' : Bytes (ofList 0 (t ++ [0] ++ junk)) (t.length + 1) junk := by simpa using h2
  have := h2'.readN
  rw [hj] at this
  rw [this]
  rfl

theorem inFile_eq {w : World} (h : Fit w) (want : List (List UInt8) → Bool) : inFile w want = some (w.lines.find? want) := by
  obtain ⟨g, p, e, _, _⟩ := set_spec h.good w.db.stayopen (.inl rfl)
  obtain ⟨d', e', _⟩ := search_spec want _ g (Nat.lt_succ_self _)
  unfold inFile
  rw [e', p]
  unfold World.lines Db.entries
  rw [e]
  rfl

theorem find_first {α : Type} {l pre post : List α} {x : α} {want : α → Bool} (hl : l = pre ++ x :: post) (hpre : ∀ y ∈ pre, want y = false) (hx : want x = true) :
    l.find? want = some x := by
  subst hl
  rw [List.find?_append, List.find?_eq_none.2 (fun y hy => by rw [hpre y hy]; decide), List.find?_cons_of_pos hx]
  rfl

theorem names_iff {w : World} (h : Fit w) {f : List (List UInt8)} (hf : f ∈ w.lines) {name : List UInt8} (hn : 0 ∉ name) :
    ((f.drop 1).any fun x => same x name) = true ↔ Names f name := by
  rw [List.any_eq_true]
  unfold Names
  rw [List.drop_one]
  constructor
  · rintro ⟨x, hx, hs⟩
    exact ⟨x, hx, (same_iff (lines_nul h hf (List.mem_of_mem_tail hx)) hn).1 hs⟩
  · rintro ⟨x, hx, hs⟩
    exact ⟨x, hx, (same_iff (lines_nul h hf (List.mem_of_mem_tail hx)) hn).2 hs⟩

theorem hostName_nul {name : List UInt8} {ls : List (List UInt8)} (h : HostName name ls) : 0 ∉ name := by
  obtain ⟨rfl, _, hl⟩ := h
  have : ∀ (l : List (List UInt8)), (∀ x ∈ l, 0 ∉ x) → (0 : UInt8) ∉ dots l := by
    intro l
    induction l with
    | nil => intro _; simp [dots, List.intercalate]
    | cons a l ih =>
      intro h0
      cases l with
      | nil => simpa [dots, List.intercalate] using h0 a (by simp)
      | cons b l =>
        have := ih (fun x hx => h0 x (by simp [hx]))
        unfold dots at this ⊢
        rw [List.intercalate_cons_cons]
        simp only [List.mem_append, not_or]
        exact ⟨⟨h0 a (by simp), by decide⟩, this⟩
  refine this ls fun x hx h0 => ?_
  have := ((hl x hx).2.2.2 0 h0).1
  exact absurd this (by decide)

theorem ofFields_entry {w : World} (h : Fit w) {f : List (List UInt8)} (hf : f ∈ w.lines) {a : Nat} {name : List UInt8} {aliases : List (List UInt8)} (he : Entry f a name aliases) :
    ofFields w.junk f = ⟨name ++ [0], .strings (aliases.map (· ++ [0])), 2, 4, netBytes a⟩ := by
  obtain ⟨t, rfl, ha⟩ := he
  unfold ofFields
  rw [List.headD_cons, aton_address h.junk (lines_nul h hf (by simp)) ha]
  rfl

theorem byName_host {w : World} (h : Fit w) {name : List UInt8} {ls : List (List UInt8)} (hn : HostName name ls) (h4 : ls.length ≠ 4) :
    byName w name = match w.lines.find? fun f => (f.drop 1).any fun x => same x name with
      | some f => ⟨.entry (ofFields w.junk f), []⟩
      | none => match (lookupHost w.dns name).res with
        | .ok (a :: _) => ⟨.entry ⟨name, .freed, AF_INET, 4, a⟩, (lookupHost w.dns name).sent⟩
        | .ok [] => ⟨.null .HOST_NOT_FOUND, (lookupHost w.dns name).sent⟩
        | .err _ => ⟨.null .NO_RECOVERY, (lookupHost w.dns name).sent⟩
        | _ => ⟨.broken, (lookupHost w.dns name).sent⟩ := by
  unfold byName
  rw [parse_host hn h4]
  dsimp only
  rw [inFile_eq h]
  cases w.lines.find? fun f => (f.drop 1).any fun x => same x name <;> rfl

theorem byAddr_four {w : World} (h : Fit w) (a b c d : UInt8) (format : Int) :
    byAddr w a b c d 4 format = match w.lines.find? fun f => aton w.junk (f.headD []) == [a, b, c, d] with
      | some f => ⟨.entry (ofFields w.junk f), []⟩
      | none => match (lookupAddr w.dns a b c d).res with
        | .ok (n :: _) => ⟨.entry ⟨n, .freed, format, 4, [a, b, c, d]⟩, (lookupAddr w.dns a b c d).sent⟩
        | .ok [] => ⟨.null .HOST_NOT_FOUND, (lookupAddr w.dns a b c d).sent⟩
        | .err _ => ⟨.null .NO_RECOVERY, (lookupAddr w.dns a b c d).sent⟩
        | _ => ⟨.broken, (lookupAddr w.dns a b c d).sent⟩ := by
  unfold byAddr
  rw [if_neg (by simp), inFile_eq h]
  cases w.lines.find? fun f => aton w.junk (f.headD []) == [a, b, c, d] <;> rfl

theorem no_name {w : World} (h : Fit w) {name : List UInt8} (h0 : 0 ∉ name) (hno : ∀ f ∈ w.lines, ¬ Names f name) :
    (w.lines.find? fun f => (f.drop 1).any fun x => same x name) = none :=
  List.find?_eq_none.2 fun f hf q => hno f hf ((names_iff h hf h0).1 q)

theorem no_addr {w : World} (h : Fit w) {v : List UInt8} (hno : ∀ f ∈ w.lines, ∃ x n al, Entry f x n al ∧ netBytes x ≠ v) :
    (w.lines.find? fun f => aton w.junk (f.headD []) == v) = none := by
  refine List.find?_eq_none.2 fun f hf q => ?_
  obtain ⟨x, n, al, ⟨t, rfl, ha⟩, hne⟩ := hno f hf
  rw [List.headD_cons, aton_address h.junk (lines_nul h hf (by simp)) ha] at q
  exact hne (by simpa using q)

/-! ## Theorems -/

/-- **C141.** A host of the file is found by its name or any alias, whatever the case of the letters: the result is the first such entry of the file, with its name, all its aliases and its address;
no query is sent. -/
theorem C141_byname_file {w : World} (h : Fit w) {name : List UInt8} {ls : List (List UInt8)} (hn : HostName name ls) (h4 : ls.length ≠ 4)
    {pre post : List (List (List UInt8))} {f : List (List UInt8)} (hl : w.lines = pre ++ f :: post) (hpre : ∀ g ∈ pre, ¬ Names g name) (hf : Names f name)
    {a : Nat} {n : List UInt8} {aliases : List (List UInt8)} (he : Entry f a n aliases) :
    byName w name = ⟨.entry ⟨n ++ [0], .strings (aliases.map (· ++ [0])), 2, 4, netBytes a⟩, []⟩ := by
  have h0 := hostName_nul hn
  have hmem : ∀ g, g ∈ pre ∨ g = f → g ∈ w.lines := by
    intro g hg
    rw [hl]
    rcases hg with hg | rfl
    · simp [hg]
    · simp
  rw [byName_host h hn h4, find_first hl (fun g hg => by
    rw [Bool.eq_false_iff]
    exact fun q => hpre g hg ((names_iff h (hmem g (.inl hg)) h0).1 q)) ((names_iff h (hmem f (.inr rfl)) h0).2 hf)]
  dsimp only
  rw [ofFields_entry h (hmem f (.inr rfl)) he]

/-- **C141, partial.** A host that is not in the file is asked for at the name server, once; the result has the first address of the answer. Missing: the name is not terminated, and the aliases
cannot be read (`C141_unterminated_violation`). -/
theorem C141_byname_dns_partial {w : World} (h : Fit w) {name : List UInt8} {ls : List (List UInt8)} (hn : HostName name ls) (h4 : ls.length ≠ 4) (hno : ∀ f ∈ w.lines, ¬ Names f name)
    {a b c d : UInt8} {fd : Nat} {data : List UInt8} {r : Dns} (hw : Works w.dns a b c d fd data) (hr : Message data r) {v : List UInt8} {vs : List (List UInt8)}
    (hv : addresses r = v :: vs) :
    ∃ e q, byName w name = ⟨.entry e, [([a, b, c, d], q)]⟩ ∧ Message q ⟨UInt16.ofNat (w.dns.nsec / 65536), 0x0100, [⟨name, 1, 1⟩], []⟩ ∧ e.addr = v ∧ e.length = 4 ∧ e.addrtype = 2 ∧
      name <+: e.name := by
  obtain ⟨q, hq, hres, hsent⟩ := C125_host_partial w.dns name ls a b c d fd data r hn h4 hw hr
  rw [byName_host h hn h4, no_name h (hostName_nul hn) hno]
  dsimp only
  rw [hres, hv, hsent]
  exact ⟨_, q, rfl, hq, rfl, rfl, rfl, List.prefix_refl _⟩

/-- **C141.** A host that neither the file nor the name server knows: `HOST_NOT_FOUND`. -/
theorem C141_byname_unknown {w : World} (h : Fit w) {name : List UInt8} {ls : List (List UInt8)} (hn : HostName name ls) (h4 : ls.length ≠ 4) (hno : ∀ f ∈ w.lines, ¬ Names f name)
    {a b c d : UInt8} {fd : Nat} {data : List UInt8} {r : Dns} (hw : Works w.dns a b c d fd data) (hr : Message data r) (hv : addresses r = []) :
    (byName w name).res = .null .HOST_NOT_FOUND := by
  obtain ⟨q, hq, hres, hsent⟩ := C125_host_partial w.dns name ls a b c d fd data r hn h4 hw hr
  rw [byName_host h hn h4, no_name h (hostName_nul hn) hno]
  dsimp only
  rw [hres, hv]

/-- **C141.** No name server, or it cannot be reached: `NO_RECOVERY`, for a name that is not in the file. -/
theorem C141_byname_error {w : World} (h : Fit w) {name : List UInt8} {ls : List (List UInt8)} (hn : HostName name ls) (h4 : ls.length ≠ 4) (hno : ∀ f ∈ w.lines, ¬ Names f name)
    (hw : (∃ e, w.dns.server = .error e) ∨ (∃ s a b c d, w.dns.server = .ok s ∧ Quad s (UInt8.toNat a) (UInt8.toNat b) (UInt8.toNat c) (UInt8.toNat d) ∧
      (w.dns.socket = none ∨ w.dns.connect = false ∨ w.dns.send = false ∨ w.dns.reply = .failed)) ∧ w.dns.reply ≠ .lost) :
    (byName w name).res = .null .NO_RECOVERY := by
  obtain ⟨f1, f2, _⟩ := C125_failures w.dns name ls hn h4
  rw [byName_host h hn h4, no_name h (hostName_nul hn) hno]
  dsimp only
  rcases hw with ⟨e, he⟩ | ⟨⟨s, a, b, c, d, hs, hq, hx⟩, hl⟩
  · rw [f1 e he]
  · rcases f2 s a b c d hs hq hx with q | q
    · rw [q]
    · exact absurd q hl

/-- **C141.** An address of the file is found: the result is the first entry with it, with its names; no query is sent. All entries before must have addresses (`C141_uninit_violation`). -/
theorem C141_byaddr_file {w : World} (h : Fit w) {a b c d : UInt8} {format : Int} {pre post : List (List (List UInt8))} {f : List (List UInt8)} (hl : w.lines = pre ++ f :: post)
    (hpre : ∀ g ∈ pre, ∃ x n al, Entry g x n al ∧ netBytes x ≠ [a, b, c, d]) {v : Nat} {n : List UInt8} {aliases : List (List UInt8)} (he : Entry f v n aliases)
    (hv : netBytes v = [a, b, c, d]) :
    byAddr w a b c d 4 format = ⟨.entry ⟨n ++ [0], .strings (aliases.map (· ++ [0])), 2, 4, [a, b, c, d]⟩, []⟩ := by
  have hmem : ∀ g, g ∈ pre ∨ g = f → g ∈ w.lines := by
    intro g hg
    rw [hl]
    rcases hg with hg | rfl
    · simp [hg]
    · simp
  rw [byAddr_four h, find_first hl ?_ ?_]
  · dsimp only
    rw [ofFields_entry h (hmem f (.inr rfl)) he, hv]
  · intro g hg
    obtain ⟨x, n', al', ⟨t, rfl, ha⟩, hne⟩ := hpre g hg
    rw [List.headD_cons, aton_address h.junk (lines_nul h (hmem _ (.inl hg)) (by simp)) ha]
    simpa using hne
  · obtain ⟨t, rfl, ha⟩ := he
    rw [List.headD_cons, aton_address h.junk (lines_nul h (hmem _ (.inr rfl)) (by simp)) ha, hv]
    simp

/-- **C141, partial.** An address that is not in the file: the name server is asked once, and the result has the first name of the answer, terminated, and the address. Missing: the aliases
cannot be read (`C141_unterminated_violation`), the type is the argument (`C141_family_violation`). -/
theorem C141_byaddr_dns_partial {w : World} (h : Fit w) {x y z t : UInt8} {format : Int} (hno : ∀ f ∈ w.lines, ∃ v n al, Entry f v n al ∧ netBytes v ≠ [x, y, z, t])
    {a b c d : UInt8} {fd : Nat} {data : List UInt8} {r : Dns} (hw : Works w.dns a b c d fd data) (hr : Message data r) {ls : List (List UInt8)} {names : List (List (List UInt8))}
    (hn : ((r.answers.filter fun a => a.atype = 12 ∧ a.aclass = 1).map (·.data)) = (ls :: names).map encoded) (hls : ∀ l ∈ ls :: names, l ≠ [] ∧ ∀ x ∈ l, x ≠ [] ∧ x.length ≤ 63) :
    ∃ e q, byAddr w x y z t 4 format = ⟨.entry e, [([a, b, c, d], q)]⟩ ∧
      Message q ⟨UInt16.ofNat (w.dns.nsec / 65536), 0x0100, [⟨quadText t z y x ++ [0x2E, 0x69, 0x6E, 0x2D, 0x61, 0x64, 0x64, 0x72, 0x2E, 0x61, 0x72, 0x70, 0x61], 12, 1⟩], []⟩ ∧
      e.addr = [x, y, z, t] ∧ e.length = 4 ∧ e.name = dots ls ++ [0] := by
  obtain ⟨q, hq, hres, hsent⟩ := C125_addr_partial w.dns x y z t a b c d fd data r hw hr (ls :: names) hn hls
  rw [byAddr_four h, no_addr h hno]
  dsimp only
  rw [hres, hsent]
  exact ⟨_, q, rfl, hq, rfl, rfl, rfl⟩

/-- **C141.** An address of another length is refused, and nothing is asked. -/
theorem C141_byaddr_length {w : World} (a b c d : UInt8) {length : Nat} (hl : length ≠ 4) (format : Int) : byAddr w a b c d length format = ⟨.null .NO_RECOVERY, []⟩ := by
  unfold byAddr
  rw [if_pos hl]

/-! ## What does not hold -/

/-- **C141, violated.** What the name server says about a name is returned with a name that is not terminated, and with aliases in memory that was freed. -/
theorem C141_unterminated_violation {w : World} (h : Fit w) {name : List UInt8} {ls : List (List UInt8)} (hn : HostName name ls) (h4 : ls.length ≠ 4) (hno : ∀ f ∈ w.lines, ¬ Names f name)
    {a b c d : UInt8} {fd : Nat} {data : List UInt8} {r : Dns} (hw : Works w.dns a b c d fd data) (hr : Message data r) {v : List UInt8} {vs : List (List UInt8)}
    (hv : addresses r = v :: vs) : ∃ e, (byName w name).res = .entry e ∧ 0 ∉ e.name ∧ e.aliases = .freed := by
  obtain ⟨q, hq, hres, hsent⟩ := C125_host_partial w.dns name ls a b c d fd data r hn h4 hw hr
  rw [byName_host h hn h4, no_name h (hostName_nul hn) hno]
  dsimp only
  rw [hres, hv]
  exact ⟨_, rfl, hostName_nul hn, rfl⟩

/-- **C141, violated.** A host given by its address is not found unless it has a name: no entry in the file, and no name at the server. -/
theorem C141_numeric_violation {w : World} (h : Fit w) {s : List UInt8} {x y z t : UInt8} (hs : Quad s x.toNat y.toNat z.toNat t.toNat)
    (hno : ∀ f ∈ w.lines, ∃ v n al, Entry f v n al ∧ netBytes v ≠ [x, y, z, t]) {a b c d : UInt8} {fd : Nat} {data : List UInt8} {r : Dns} (hw : Works w.dns a b c d fd data)
    (hr : Message data r) (hn : (r.answers.filter fun a => a.atype = 12 ∧ a.aclass = 1) = []) : (byName w s).res = .null .HOST_NOT_FOUND := by
  obtain ⟨q, hq, hres, hsent⟩ := C125_addr_partial w.dns x y z t a b c d fd data r hw hr [] (by rw [hn]; rfl) (by simp)
  unfold byName
  rw [parse_quad hs]
  dsimp only
  rw [byAddr_four h, no_addr h hno]
  dsimp only
  rw [hres]
  rfl

/-- **C141, violated.** A name of four labels is taken for an address: "www.bbc.co.uk" for 0.0.0.0, whatever the file says about the name. -/
theorem C141_labels_violation (w : World) :
    byName w [0x77, 0x77, 0x77, 0x2E, 0x62, 0x62, 0x63, 0x2E, 0x63, 0x6F, 0x2E, 0x75, 0x6B] = byAddr w 0 0 0 0 4 2 := by
  have : parseIpv4 [0x77, 0x77, 0x77, 0x2E, 0x62, 0x62, 0x63, 0x2E, 0x63, 0x6F, 0x2E, 0x75, 0x6B] = some [0, 0, 0, 0] := by decide +kernel
  unfold byName
  rw [this]
  rfl

/-- **C141, violated.** The kind of address asked for is not looked at: an IPv4 address is returned under the name of any other kind. -/
theorem C141_family_violation {w : World} (h : Fit w) {x y z t : UInt8} {format : Int} (hno : ∀ f ∈ w.lines, ∃ v n al, Entry f v n al ∧ netBytes v ≠ [x, y, z, t])
    {a b c d : UInt8} {fd : Nat} {data : List UInt8} {r : Dns} (hw : Works w.dns a b c d fd data) (hr : Message data r) {ls : List (List UInt8)} {names : List (List (List UInt8))}
    (hn : ((r.answers.filter fun a => a.atype = 12 ∧ a.aclass = 1).map (·.data)) = (ls :: names).map encoded) (hls : ∀ l ∈ ls :: names, l ≠ [] ∧ ∀ x ∈ l, x ≠ [] ∧ x.length ≤ 63) :
    ∃ e, (byAddr w x y z t 4 format).res = .entry e ∧ e.addrtype = format ∧ e.length = 4 ∧ e.aliases = .freed := by
  obtain ⟨q, hq, hres, hsent⟩ := C125_addr_partial w.dns x y z t a b c d fd data r hw hr (ls :: names) hn hls
  rw [byAddr_four h, no_addr h hno]
  dsimp only
  rw [hres]
  exact ⟨_, rfl, rfl, rfl, rfl⟩

/-- **C141, violated.** A line for an IPv6 address ("::1 localhost") has for `gethostbyaddr` whatever address was left in memory: if that is the one looked for, the line is returned. -/
theorem C141_uninit_violation {w : World} (h : Fit w) {f : List (List UInt8)} {post : List (List (List UInt8))} (hl : w.lines = f :: post) {t : List UInt8} (ht : f.head? = some t)
    (hp : 0x2B ∉ t) (ha : ¬ ∃ a, Address t a) {a b c d : UInt8} (hj : w.junk = [a, b, c, d]) (format : Int) : (byAddr w a b c d 4 format).res = .entry (ofFields w.junk f) := by
  have hm : f ∈ w.lines := by rw [hl]; simp
  have hh : f.headD [] = t := by
    cases f with
    | nil => cases ht
    | cons x xs => simpa using ht
  have h0 : 0 ∉ t := by
    refine lines_nul h hm ?_
    cases f with
    | nil => cases ht
    | cons x xs =>
      simp at ht
      simp [ht]
  rw [byAddr_four h, find_first (pre := []) (by simpa using hl) (by simp) ?_]
  rw [hh, aton_other h.junk h0 hp ha, hj]
  simp

/-- **C141, violated.** A line of one word ends the program: the search for any name that comes to it panics. -/
theorem C141_panic_violation {w : World} (hs : w.db.k.seekable = true) (hk : ∀ n, w.db.k.answer n ≠ .err) {l u : List UInt8} (hd : w.db.k.data = l ++ 0x0A :: u) (hl : 0x0A ∉ l)
    (ha : hosts.accept l = true) (h1 : (fields l).length = 1) {name : List UInt8} {ls : List (List UInt8)} (hn : HostName name ls) (h4 : ls.length ≠ 4) : (byName w name).res = .broken := by
  obtain ⟨mv, _, _⟩ := set_moved hosts w.db w.db.stayopen
  have hp : (w.db.set hosts w.db.stayopen).pos = 0 := by
    unfold Db.set
    dsimp only
    split <;> rfl
  have := C69_panic_violation (t := hosts) (d := w.db.set hosts w.db.stayopen) (by rw [mv.seekable]; exact hs) (by rw [mv.answer]; exact hk) (by rw [hp]; decide)
    (by rw [hp, mv.data]; exact hd) hl ha (by simp [hosts, h1])
  unfold byName
  rw [parse_host hn h4]
  dsimp only
  unfold inFile
  rw [Db.search, this]
  rfl

/-! ## Examples -/

/-- "127.0.0.1 localhost me\n" -/
def exampleHosts : List UInt8 := [49, 50, 55, 46, 48, 46, 48, 46, 49, 32, 108, 111, 99, 97, 108, 104, 111, 115, 116, 32, 109, 101, 10]

example : (linesOf exampleHosts).map fields = [[quadText 127 0 0 1, [108, 111, 99, 97, 108, 104, 111, 115, 116], [109, 101]]] := by decide +kernel

/-- "ME" is that host. -/
example : Names [quadText 127 0 0 1, [108, 111, 99, 97, 108, 104, 111, 115, 116], [109, 101]] [77, 69] := ⟨[109, 101], by simp, by decide +kernel⟩

/-- "::1": what was there stays there. -/
example : aton [9, 9, 9, 9] [58, 58, 49] = [9, 9, 9, 9] := by
  have c1 : CStr (ofList 0 ([(58 : UInt8), 58, 49] ++ [0] ++ [9, 9, 9, 9])) 0 [58, 58, 49] := ⟨bytes_iff.2 (by decide +kernel), rfl, by decide⟩
  unfold aton
  rw [inetAton_cstr c1 (fun i hi => by revert i; decide +kernel)]
  decide +kernel

/-- "10.1" -/
example : aton [9, 9, 9, 9] [0x31, 0x30, 0x2E, 0x31] = [10, 0, 0, 1] :=
  (aton_address (a := 10 * 2 ^ 24 + 1) rfl (by decide)
    ⟨[([0x31, 0x30], 10), ([0x31], 1)], by decide +kernel, by
      intro x hx
      simp only [List.mem_cons, List.not_mem_nil, or_false] at hx
      rcases hx with rfl | rfl
      · exact .inl ⟨.inl (by decide), .snoc (s := [0x31]) (v := 1) (d := 0) (.one ⟨by decide, .inl (by decide)⟩) ⟨by decide, .inl (by decide)⟩⟩
      · exact .inl ⟨.inl (by decide), .one ⟨by decide, .inl (by decide)⟩⟩, rfl⟩).trans (by decide)

example : HostName [77, 69] [[77, 69]] := by
  refine ⟨rfl, by simp, ?_⟩
  decide

end Verif.Hosts

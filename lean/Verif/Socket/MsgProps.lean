import Verif.Socket.MsgModel
import Verif.Socket.AddrProps
import Verif.Uio.UioProps

/-!
# `sendmsg` and `recvmsg` on Redox (C113)
-/

namespace Verif.Socket

open Verif.Mem Verif.Net Verif.Stdlib

variable {σ : Type}

/-! ## Specification -/

/-- A control message: descriptors, or credentials (process, user, group). -/
inductive Ctl where
  | rights (fds : List Nat)
  | creds (data : List UInt8)

/-- `cmsg_type`. -/
def Ctl.type : Ctl → Nat
  | .rights _ => 1
  | .creds _ => 2

/-- The data behind the header, as programs see it. -/
def Ctl.data : Ctl → List UInt8
  | .rights fds => fds.flatMap (leBytes 4)
  | .creds d => d

/-- What is valid: descriptors are not negative, credentials have 12 bytes, and lengths fit. -/
def Ctl.Ok : Ctl → Prop
  | .rights fds => (∀ fd ∈ fds, fd < 2 ^ 31) ∧ fds.length < 2 ^ 28
  | .creds d => d.length = 12

/-- The room a control message with `n` bytes of data takes: the header and the data, both padded to 8 bytes. -/
def room (n : Nat) : Nat := 16 + (n + 7) / 8 * 8

/-- The room of several. -/
def used (cs : List Ctl) : Nat := (cs.map fun c => room c.data.length).sum

/-- The control messages are in memory one behind the other, as `CMSG_FIRSTHDR` and `CMSG_NXTHDR` find them. -/
def Placed (m : Mem UInt8) (p : Nat) : List Ctl → Prop
  | [] => True
  | c :: r => Bytes m p (leBytes 8 (16 + c.data.length) ++ leBytes 4 1 ++ leBytes 4 c.type) ∧ Bytes m (p + 16) c.data
      ∧ Placed m (p + room c.data.length) r

/-- A control message in the stream to the scheme: level, type, length of the data, data. The descriptors themselves are not in the stream,
only their number. -/
def Ctl.out (c : Ctl) : List UInt8 :=
  leBytes 4 1 ++ leBytes 4 c.type ++ match c with
    | .rights fds => leBytes 8 8 ++ leBytes 8 fds.length
    | .creds _ => leBytes 8 0

/-- A control message in the stream from the scheme. -/
def Ctl.inn (c : Ctl) : List UInt8 :=
  leBytes 4 1 ++ leBytes 4 c.type ++ match c with
    | .rights fds => leBytes 8 8 ++ leBytes 8 fds.length
    | .creds d => leBytes 8 12 ++ d

/-- The scheme has been given the descriptors, those of one message by one call, in order. -/
inductive Given (sch : Scheme σ) : σ → List Ctl → σ → Prop
  | nil (st : σ) : Given sch st [] st
  | rights {st st' st'' : σ} {fds : List Nat} {r : List Ctl} : fds ≠ [] → sch.give st fds = .ok st' → Given sch st' r st'' →
      Given sch st (.rights fds :: r) st''
  | empty {st st' : σ} {r : List Ctl} : Given sch st r st' → Given sch st (.rights [] :: r) st'
  | creds {st st' : σ} {d : List UInt8} {r : List Ctl} : Given sch st r st' → Given sch st (.creds d :: r) st'

/-- The scheme has delivered the descriptors. -/
inductive Taken (sch : Scheme σ) (cloexec : Bool) : σ → List Ctl → σ → Prop
  | nil (st : σ) : Taken sch cloexec st [] st
  | rights {st st' st'' : σ} {fds : List Nat} {r : List Ctl} : sch.take st fds.length cloexec = .ok (fds, st') → Taken sch cloexec st' r st'' →
      Taken sch cloexec st (.rights fds :: r) st''
  | creds {st st' : σ} {d : List UInt8} {r : List Ctl} : Taken sch cloexec st r st' → Taken sch cloexec st (.creds d :: r) st'

/-! ## Lemmas -/

theorem flatMap_length (fds : List Nat) : (fds.flatMap (leBytes 4)).length = 4 * fds.length := by
  induction fds with
  | nil => rfl
  | cons a t ih =>
    rw [List.flatMap_cons, List.length_append, ih, leBytes_length, List.length_cons]
    omega

theorem data_lt {c : Ctl} (h : c.Ok) : c.data.length < 2 ^ 30 := by
  cases c with
  | rights fds =>
    have := h.2
    simp only [Ctl.data, flatMap_length]
    omega
  | creds d =>
    have : d.length = 12 := h
    simp only [Ctl.data]
    omega

theorem type_lt (c : Ctl) : c.type < 2 ^ 32 := by cases c <;> simp [Ctl.type]

theorem readInt_of {m : Mem UInt8} {p n v : Nat} (h : Bytes m p (leBytes n v)) (hv : v < 256 ^ n) : readInt m p n = some v := by
  have := h.readN
  rw [leBytes_length] at this
  simp only [readInt, this, Option.map_some, leValue_leBytes n v hv]

/-- The fields of a header. -/
theorem header_read {m : Mem UInt8} {p len t : Nat} (h : Bytes m p (leBytes 8 len ++ leBytes 4 1 ++ leBytes 4 t)) (hl : len < 2 ^ 64) (ht : t < 2 ^ 32) :
    readInt m p 8 = some len ∧ readInt m (p + 8) 4 = some 1 ∧ readInt m (p + 12) 4 = some t := by
  rw [bytes_append, bytes_append] at h
  obtain ⟨⟨h1, h2⟩, h3⟩ := h
  rw [List.length_append, leBytes_length, leBytes_length] at h3
  rw [leBytes_length] at h2
  exact ⟨readInt_of h1 (by omega), readInt_of h2 (by omega), readInt_of h3 (by omega)⟩

theorem align_len (n : Nat) : cmsgAlign (16 + n) = room n := by
  simp only [cmsgAlign, room]
  omega

theorem space_eq {n : Nat} (h : n < 2 ^ 30) : cmsgSpace n = room n := by
  simp only [cmsgSpace, room, cmsgAlign]
  omega

theorem cmsgLen_eq {n : Nat} (h : n < 2 ^ 30) : cmsgLen n = 16 + n := by
  simp only [cmsgLen]
  omega

theorem readFds_eq {fds : List Nat} (h : ∀ fd ∈ fds, fd < 2 ^ 31) {m : Mem UInt8} {p : Nat} (hb : Bytes m p (fds.flatMap (leBytes 4))) :
    readFds m p fds.length = some fds := by
  induction fds generalizing p with
  | nil => rfl
  | cons a t ih =>
    rw [List.flatMap_cons, bytes_append, leBytes_length] at hb
    have ha := h a (by simp)
    rw [List.length_cons, readFds, readInt_of hb.1 (by omega)]
    simp only [Option.bind_eq_bind, Option.bind_some, ih (fun fd hf => h fd (by simp [hf])) hb.2]
    rw [signExtend, if_pos (by omega)]

/-! ### Sending -/

theorem gatherIov_eq {m : Mem UInt8} {vs : List (Nat × Nat)} {bs : List (List UInt8)} (h : Uio.Holds m vs bs) (hz : ∀ v ∈ vs, v.1 ≠ 0) :
    gatherIov m vs = some (.ok bs.flatten) ∧ iovSize vs = bs.flatten.length := by
  induction vs generalizing bs with
  | nil =>
    cases bs with
    | nil => exact ⟨rfl, rfl⟩
    | cons => exact h.elim
  | cons v vs ih =>
    cases bs with
    | nil => exact h.elim
    | cons b bs =>
      obtain ⟨h1, h2, h3⟩ := h
      obtain ⟨e1, e2⟩ := ih h3 fun w hw => hz w (by simp [hw])
      constructor
      · obtain ⟨base, len⟩ := v
        simp only at h1 h2
        rw [gatherIov]
        by_cases hl : len > 0
        · rw [if_pos hl, if_neg (by simpa using hz (base, len) (by simp)), ← h2, h1.readN]
          simp [e1]
        · rw [if_neg hl, e1]
          have : b = [] := List.length_eq_zero_iff.1 (by omega)
          simp [this]
      · simp only [iovSize, List.map_cons, List.sum_cons, List.flatten_cons, List.length_append] at *
        omega

theorem sendData_creds (sch : Scheme σ) (m : Mem UInt8) (st : σ) (p len : Nat) : sendData sch m st p len 1 2 = some (.ok (leBytes 8 0), st) := rfl

theorem sendData_rights (sch : Scheme σ) {m : Mem UInt8} (st : σ) {p : Nat} {fds : List Nat} (h : ∀ fd ∈ fds, fd < 2 ^ 31)
    (hb : Bytes m (p + 16) (fds.flatMap (leBytes 4))) :
    sendData sch m st p (16 + (fds.flatMap (leBytes 4)).length) 1 1
      = if fds = [] then some (.ok (leBytes 8 8 ++ leBytes 8 0), st) else match sch.give st fds with
        | .error e => some (.error e, st)
        | .ok st => some (.ok (leBytes 8 8 ++ leBytes 8 fds.length), st) := by
  have e1 : 16 + (fds.flatMap (leBytes 4)).length - 16 = 4 * fds.length := by rw [flatMap_length]; omega
  unfold sendData
  rw [if_pos ⟨rfl, rfl⟩, e1, if_neg (by omega), show 4 * fds.length / 4 = fds.length by omega, readFds_eq h hb]
  by_cases hf : fds = []
  · subst hf
    rfl
  · rw [if_pos (List.length_pos_iff.2 hf), if_neg hf]
    rfl

theorem sendData_eq (sch : Scheme σ) {m : Mem UInt8} {c : Ctl} {r : List Ctl} {st st' : σ} {p : Nat} (hc : c.Ok) (hd : Bytes m (p + 16) c.data)
    (hg : Given sch st (c :: r) st') :
    ∃ st1 data, sendData sch m st p (16 + c.data.length) 1 c.type = some (.ok data, st1) ∧ Given sch st1 r st'
      ∧ c.out = leBytes 4 1 ++ leBytes 4 c.type ++ data := by
  cases hg with
  | rights hne hgive hrest =>
    refine ⟨_, _, ?_, hrest, rfl⟩
    simp only [Ctl.type, Ctl.data]
    rw [sendData_rights sch st hc.1 hd, if_neg hne, hgive]
  | empty hrest =>
    refine ⟨_, _, ?_, hrest, rfl⟩
    simp only [Ctl.type, Ctl.data]
    rw [sendData_rights sch st hc.1 hd, if_pos rfl]
    rfl
  | creds hrest => exact ⟨_, _, sendData_creds sch m st p _, hrest, rfl⟩

theorem sendCmsgs_eq (sch : Scheme σ) {m : Mem UInt8} {msg : Msg} {c : Ctl} {r : List Ctl} {st st' : σ} {p : Nat} (hp : p ≠ 0)
    (hpl : Placed m p (c :: r)) (hok : ∀ x ∈ c :: r, x.Ok) (hg : Given sch st (c :: r) st')
    (h1 : p + used (c :: r).dropLast + 16 ≤ msg.control + msg.controllen) (h2 : msg.control + msg.controllen < p + used (c :: r) + 16) :
    sendCmsgs sch m msg st p = some (.ok ((c :: r).flatMap Ctl.out), st') := by
  induction r generalizing c st p with
  | nil =>
    obtain ⟨hb, hd, _⟩ := hpl
    have hc := hok c (by simp)
    have hlt := data_lt hc
    obtain ⟨r1, r2, r3⟩ := header_read hb (by omega) (type_lt c)
    have hend : p + cmsgAlign (16 + c.data.length) + 16 > msg.control + msg.controllen := by
      rw [align_len]
      simp only [used, List.map_cons, List.map_nil, List.sum_cons, List.sum_nil] at h2
      omega
    obtain ⟨st1, data, e1, e2, e3⟩ := sendData_eq sch hc hd hg
    cases e2
    rw [sendCmsgs, if_neg hp, r1, r2, r3]
    simp only [Option.bind_eq_bind, Option.bind_some]
    rw [dif_neg (by omega), e1]
    simp only [Option.bind_some]
    rw [dif_pos hend]
    simp [e3]
  | cons c' r ih =>
    obtain ⟨hb, hd, hrestp⟩ := hpl
    have hc := hok c (by simp)
    have hlt := data_lt hc
    obtain ⟨r1, r2, r3⟩ := header_read hb (by omega) (type_lt c)
    have hu : used (c :: c' :: r) = room c.data.length + used (c' :: r) := by simp [used]
    have hu' : used (c :: c' :: r).dropLast = room c.data.length + used (c' :: r).dropLast := by simp [used]
    have hroom : 16 ≤ room c.data.length := by simp only [room]; omega
    have hend : ¬ p + cmsgAlign (16 + c.data.length) + 16 > msg.control + msg.controllen := by
      rw [align_len]
      omega
    obtain ⟨st1, data, e1, e2, e3⟩ := sendData_eq sch hc hd hg
    have e := ih (by omega) hrestp (fun x hx => hok x (List.mem_cons_of_mem _ hx)) e2 (by omega) (by omega)
    rw [sendCmsgs, if_neg hp, r1, r2, r3]
    simp only [Option.bind_eq_bind, Option.bind_some]
    rw [dif_neg (by omega), e1]
    simp only [Option.bind_some]
    rw [dif_neg hend, align_len, e]
    simp [e3]

/-- The control buffer of a message to be sent: none, or exactly these control messages. (The padding of the last one may be missing, and
there may be less than 16 bytes behind it.) -/
def ControlIs (m : Mem UInt8) (msg : Msg) (cs : List Ctl) : Prop :=
  (cs = [] ∧ msg.controllen = 0)
  ∨ (cs ≠ [] ∧ msg.control ≠ 0 ∧ Placed m msg.control cs ∧ (∀ c ∈ cs, c.Ok)
      ∧ used cs.dropLast + 16 ≤ msg.controllen ∧ msg.controllen < used cs + 16)

theorem sendControl_eq (sch : Scheme σ) {m : Mem UInt8} {msg : Msg} {cs : List Ctl} {st st' : σ} (h : ControlIs m msg cs)
    (hg : Given sch st cs st') : sendControl sch m st msg = some (.ok (cs.flatMap Ctl.out), st') := by
  rcases h with ⟨rfl, h⟩ | ⟨hne, h0, hpl, hok, h1, h2⟩
  · cases hg
    rw [sendControl, if_neg (by omega)]
    rfl
  · cases cs with
    | nil => exact absurd rfl hne
    | cons c r =>
      rw [sendControl, if_pos (by omega), if_neg h0, cmsgFirst, if_pos (by omega)]
      exact sendCmsgs_eq sch h0 hpl hok hg (by omega) (by omega)

/-! ## C113: sending -/

/-- C113, `sendmsg`: the scheme is given the descriptors of the control messages and then one stream: the length of the payload, the contents of
the buffers in order, and the control messages in order. The number of bytes of the payload is returned, or the error of the scheme. -/
theorem C113_send_partial (sch : Scheme σ) {m : Mem UInt8} {msg : Msg} {cs : List Ctl} {bs : List (List UInt8)} {st st1 : σ} {flags : UInt32}
    (hiov : Uio.Holds m msg.iov bs) (hz : ∀ v ∈ msg.iov, v.1 ≠ 0) (hne : msg.iov ≠ []) (hc : ControlIs m msg cs) (hg : Given sch st cs st1) :
    (∀ st2, sch.send st1 flags (leBytes 8 bs.flatten.length ++ bs.flatten ++ cs.flatMap Ctl.out) = .ok st2 →
      sendmsg sch m st msg flags = some (.ok bs.flatten.length, st2))
    ∧ (∀ e, sch.send st1 flags (leBytes 8 bs.flatten.length ++ bs.flatten ++ cs.flatMap Ctl.out) = .error e →
      sendmsg sch m st msg flags = some (.error e, st1)) := by
  obtain ⟨e1, e2⟩ := gatherIov_eq hiov hz
  have e3 := sendControl_eq sch hc hg
  constructor
  · intro st2 h
    simp only [sendmsg, sendPayload, if_neg hne, e1, e2, e3, h, Option.bind_eq_bind, Option.bind_some]
  · intro e h
    simp only [sendmsg, sendPayload, if_neg hne, e1, e2, e3, h, Option.bind_eq_bind, Option.bind_some]

/-! ## Receiving: lemmas -/

theorem le_take (n v : Nat) (r : List UInt8) : (leBytes n v ++ r).take n = leBytes n v := by
  rw [List.take_append_of_le_length (by rw [leBytes_length]; exact Nat.le_refl _), List.take_of_length_le (by rw [leBytes_length]; exact Nat.le_refl _)]

theorem le_drop (n v : Nat) (r : List UInt8) : (leBytes n v ++ r).drop n = r := by
  rw [List.drop_append_of_le_length (by rw [leBytes_length]; exact Nat.le_refl _), List.drop_of_length_le (by rw [leBytes_length]; exact Nat.le_refl _), List.nil_append]

theorem readNum_le (v : Nat) (hv : v < 2 ^ 64) (r : List UInt8) : readNum 8 (leBytes 8 v ++ r) = .ok v := by
  rw [readNum, if_pos (by rw [List.length_append, leBytes_length]; omega), le_take, leValue_leBytes 8 v (by omega)]

/-- The part of the stream that a control message consists of besides level and type. -/
def Ctl.inData : Ctl → List UInt8
  | .rights fds => leBytes 8 fds.length
  | .creds d => d

theorem inn_eq {c : Ctl} (h : c.Ok) (r : List UInt8) :
    c.inn ++ r = leBytes 4 1 ++ (leBytes 4 c.type ++ (leBytes 8 c.inData.length ++ (c.inData ++ r))) := by
  cases c with
  | rights fds => simp [Ctl.inn, Ctl.inData, leBytes_length]
  | creds d =>
    have : d.length = 12 := h
    simp [Ctl.inn, Ctl.inData, this]

theorem cmsgData_eq (sch : Scheme σ) {c : Ctl} {r : List Ctl} {st st' : σ} {flags : UInt32} (h : c.Ok)
    (ht : Taken sch (flags &&& MSG_CMSG_CLOEXEC == MSG_CMSG_CLOEXEC) st (c :: r) st') :
    ∃ st1, cmsgData sch st flags 1 c.type c.inData = (.ok c.data, st1) ∧ Taken sch (flags &&& MSG_CMSG_CLOEXEC == MSG_CMSG_CLOEXEC) st1 r st' := by
  cases ht with
  | rights htake hrest =>
    refine ⟨_, ?_, hrest⟩
    have := h.2
    simp [Ctl.type, Ctl.inData, Ctl.data, cmsgData, SOL_SOCKET, SCM_RIGHTS, leBytes_length, leValue_leBytes 8 ‹List Nat›.length (by omega), htake]
  | creds hrest =>
    refine ⟨_, ?_, hrest⟩
    have : ‹List UInt8›.length = 12 := h
    simp [Ctl.type, Ctl.inData, Ctl.data, cmsgData, SOL_SOCKET, SCM_RIGHTS, SCM_CREDENTIALS, this]

/-- One step of the loop, up to the test for room. -/
theorem recvCmsgs_step (sch : Scheme σ) {msg : Msg} {flags : UInt32} {x : RecvState σ} {c : Ctl} {r : List Ctl} {st' : σ} (rest : List UInt8)
    (h : c.Ok) (ht : Taken sch (flags &&& MSG_CMSG_CLOEXEC == MSG_CMSG_CLOEXEC) x.st (c :: r) st') :
    ∃ st1, Taken sch (flags &&& MSG_CMSG_CLOEXEC == MSG_CMSG_CLOEXEC) st1 r st'
      ∧ recvCmsgs sch msg flags x (c.inn ++ rest) =
        if x.cmsg ≠ 0 ∧ x.left ≥ room c.data.length then do
          let m ← writeN x.mem x.cmsg (leBytes 8 (16 + c.data.length) ++ leBytes 4 1 ++ leBytes 4 c.type)
          let m ← writeN m (x.cmsg + 16) c.data
          let next ← cmsgNext m msg x.cmsg
          recvCmsgs sch msg flags ⟨m, next, x.left - room c.data.length, x.written + room c.data.length, x.flags, st1⟩ rest
        else some (.ok (), { x with st := st1, flags := x.flags ||| MSG_CTRUNC }) := by
  obtain ⟨st1, e1, e2⟩ := cmsgData_eq sch h ht
  refine ⟨st1, e2, ?_⟩
  have hd := data_lt h
  have hi : c.inData.length < 256 ^ 8 := by
    cases c with
    | rights fds => simp [Ctl.inData, leBytes_length]
    | creds d =>
      have : d.length = 12 := h
      simp only [Ctl.inData]
      omega
  have hty := type_lt c
  rw [inn_eq h]
  conv => lhs; unfold recvCmsgs
  rw [if_neg (by simp [leBytes]), dif_neg (by simp only [List.length_append, leBytes_length]; omega)]
  have d4 : (leBytes 4 1 ++ (leBytes 4 c.type ++ (leBytes 8 c.inData.length ++ (c.inData ++ rest)))).drop 4
      = leBytes 4 c.type ++ (leBytes 8 c.inData.length ++ (c.inData ++ rest)) := le_drop ..
  have d8 : (leBytes 4 1 ++ (leBytes 4 c.type ++ (leBytes 8 c.inData.length ++ (c.inData ++ rest)))).drop 8
      = leBytes 8 c.inData.length ++ (c.inData ++ rest) := by
    rw [show 8 = 4 + 4 from rfl, ← List.drop_drop, d4, le_drop]
  have d16 : (leBytes 4 1 ++ (leBytes 4 c.type ++ (leBytes 8 c.inData.length ++ (c.inData ++ rest)))).drop 16 = c.inData ++ rest := by
    rw [show 16 = 8 + 8 from rfl, ← List.drop_drop, d8, le_drop]
  simp only [d4, d8, d16, le_take, leValue_leBytes 4 1 (by decide), leValue_leBytes 4 c.type (by omega), leValue_leBytes 8 _ hi]
  rw [if_neg (by simp), List.take_left, List.drop_left, e1]
  simp only [space_eq hd, cmsgLen_eq hd, align_len]

/-- The loop over control messages which all fit, what follows them in the stream being `rest`. -/
theorem recvCmsgs_all (sch : Scheme σ) {msg : Msg} {flags fl : UInt32} (hc0 : msg.control ≠ 0) (rest : List UInt8) {cs ds : List Ctl} {m : Mem UInt8}
    {off : Nat} {st st' : σ} (hok : ∀ c ∈ cs, c.Ok)
    (ht : Taken sch (flags &&& MSG_CMSG_CLOEXEC == MSG_CMSG_CLOEXEC) st (cs ++ ds) st')
    (hfit : off + used cs ≤ msg.controllen) (hm : Mapped m (msg.control + off) (msg.controllen - off)) :
    ∃ m' st1, Taken sch (flags &&& MSG_CMSG_CLOEXEC == MSG_CMSG_CLOEXEC) st1 ds st'
      ∧ recvCmsgs sch msg flags ⟨m, if off + 16 ≤ msg.controllen then msg.control + off else 0, msg.controllen - off, off, fl, st⟩ (cs.flatMap Ctl.inn ++ rest)
        = recvCmsgs sch msg flags ⟨m', if off + used cs + 16 ≤ msg.controllen then msg.control + (off + used cs) else 0,
            msg.controllen - (off + used cs), off + used cs, fl, st1⟩ rest
      ∧ Placed m' (msg.control + off) cs
      ∧ (∀ a, a < msg.control + off ∨ msg.control + off + used cs ≤ a → m' a = m a)
      ∧ Mapped m' (msg.control + (off + used cs)) (msg.controllen - (off + used cs)) := by
  induction cs generalizing m off st with
  | nil =>
    refine ⟨m, st, ht, ?_, trivial, fun _ _ => rfl, ?_⟩
    · simp [used]
    · simpa [used] using hm
  | cons c cs ih =>
    have hc := hok c (by simp)
    have hroom : room c.data.length = 16 + (c.data.length + 7) / 8 * 8 := rfl
    have hu : used (c :: cs) = room c.data.length + used cs := by simp [used]
    rw [hu] at hfit
    have hp : msg.control + off ≠ 0 := by omega
    obtain ⟨st1, ht1, e⟩ := recvCmsgs_step sch (msg := msg) (flags := flags)
      (x := ⟨m, msg.control + off, msg.controllen - off, off, fl, st⟩) (cs.flatMap Ctl.inn ++ rest) hc ht
    have hhl : (leBytes 8 (16 + c.data.length) ++ leBytes 4 1 ++ leBytes 4 c.type).length = 16 := by
      simp [leBytes_length]
    have hm1 : Mapped m (msg.control + off) 16 := hm.mono (by omega)
    have hm2 : Mapped (patch m (msg.control + off) (leBytes 8 (16 + c.data.length) ++ leBytes 4 1 ++ leBytes 4 c.type)) (msg.control + off + 16)
        c.data.length := by
      apply mapped_patch
      intro i hi
      have := hm (16 + i) (by omega)
      rwa [← Nat.add_assoc] at this
    generalize hmm : patch (patch m (msg.control + off) (leBytes 8 (16 + c.data.length) ++ leBytes 4 1 ++ leBytes 4 c.type))
      (msg.control + off + 16) c.data = mm at *
    have hb1 : Bytes mm (msg.control + off) (leBytes 8 (16 + c.data.length) ++ leBytes 4 1 ++ leBytes 4 c.type) := by
      rw [← hmm]
      refine (bytes_patch _ _ _).patch_disjoint ?_
      rw [hhl]
      simp [Disjoint]
    have hb2 : Bytes mm (msg.control + off + 16) c.data := hmm ▸ bytes_patch _ _ _
    have hout : ∀ a, a < msg.control + off ∨ msg.control + off + room c.data.length ≤ a → mm a = m a := by
      intro a ha
      rw [← hmm, patch_out (by omega), patch_out (by rw [hhl]; omega)]
    have hmmap : Mapped mm (msg.control + (off + room c.data.length)) (msg.controllen - (off + room c.data.length)) := by
      rw [← hmm]
      apply mapped_patch
      apply mapped_patch
      intro i hi
      have := hm (room c.data.length + i) (by omega)
      rwa [← Nat.add_assoc, Nat.add_assoc msg.control] at this
    have hlt := data_lt hc
    have hnext : cmsgNext mm msg (msg.control + off)
        = some (if off + room c.data.length + 16 ≤ msg.controllen then msg.control + (off + room c.data.length) else 0) := by
      obtain ⟨r1, _, _⟩ := header_read hb1 (by omega) (type_lt c)
      rw [cmsgNext, r1]
      simp only [Option.bind_eq_bind, Option.bind_some, align_len]
      split <;> split <;> first | omega | (congr 1; omega) | rfl
    obtain ⟨m', st2, f1, f2, f3, f4, f5⟩ := ih (m := mm) (off := off + room c.data.length) (fun x hx => hok x (by simp [hx])) ht1 (by omega) hmmap
    refine ⟨m', st2, f1, ?_, ⟨?_, ?_, ?_⟩, ?_, ?_⟩
    · rw [List.flatMap_cons, List.append_assoc, if_pos (by omega), e, if_pos ⟨hp, by show msg.controllen - off ≥ _; omega⟩,
        writeN_eq (by rw [hhl]; exact hm1)]
      simp only [Option.bind_eq_bind, Option.bind_some]
      rw [writeN_eq hm2, hmm]
      simp only [Option.bind_some, hnext]
      rw [hu, ← Nat.add_assoc off, Nat.sub_sub, f2]
    · refine hb1.congr fun a h1 h2 => f4 a ?_
      rw [hhl] at h2
      omega
    · refine hb2.congr fun a h1 h2 => f4 a ?_
      omega
    · rw [Nat.add_assoc]
      exact f3
    · intro a ha
      rw [f4 a (by omega), hout a (by omega)]
    · rw [hu, ← Nat.add_assoc off]
      exact f5

theorem iovSize_eq {m : Mem UInt8} {vs : List (Nat × Nat)} {bs : List (List UInt8)} (h : Uio.Holds m vs bs) : iovSize vs = bs.flatten.length := by
  induction vs generalizing bs with
  | nil =>
    cases bs with
    | nil => rfl
    | cons => exact h.elim
  | cons v vs ih =>
    cases bs with
    | nil => exact h.elim
    | cons b bs =>
      have := ih h.2.2
      have := h.2.1
      simp only [iovSize, List.map_cons, List.sum_cons, List.flatten_cons, List.length_append] at *
      omega

theorem scatterIov_eq {m : Mem UInt8} {vs : List (Nat × Nat)} {old : List (List UInt8)} (h : Uio.Holds m vs old) (ha : Uio.Apart vs)
    (hz : ∀ v ∈ vs, v.1 ≠ 0) {s : List UInt8} (hs : s.length ≤ old.flatten.length) :
    ∃ m' new, scatterIov m vs s = some (.ok s.length, m') ∧ Uio.Holds m' vs new ∧ new.flatten = s ++ old.flatten.drop s.length
      ∧ ∀ a, (∀ v ∈ vs, a < v.1 ∨ v.1 + v.2 ≤ a) → m' a = m a := by
  induction vs generalizing old m s with
  | nil =>
    cases old with
    | cons => exact h.elim
    | nil =>
      have : s = [] := by simpa using hs
      subst this
      exact ⟨m, [], rfl, trivial, rfl, fun _ _ => rfl⟩
  | cons v vs ih =>
    cases old with
    | nil => exact h.elim
    | cons b bs =>
      obtain ⟨h1, h2, h3⟩ := h
      obtain ⟨base, len⟩ := v
      simp only at h1 h2
      rw [scatterIov]
      have hz' : ∀ v ∈ vs, v.1 ≠ 0 := fun w hw => hz w (by simp [hw])
      simp only [List.flatten_cons, List.length_append] at hs
      by_cases hl : len = 0
      · have hb : b = [] := List.length_eq_zero_iff.1 (by omega)
        subst hb
        obtain ⟨m', new, e1, e2, e3, e4⟩ := ih h3 ha.2 hz' (s := s) (by simpa using hs)
        refine ⟨m', [] :: new, by rw [if_pos hl, e1], ⟨trivial, h2, e2⟩, by simpa using e3, ?_⟩
        intro a hout
        exact e4 a fun w hw => hout w (by simp [hw])
      · have hb0 : base ≠ 0 := hz (base, len) (by simp)
        rw [if_neg hl, if_neg hb0]
        by_cases hse : s = []
        · subst hse
          exact ⟨m, b :: bs, by simp, ⟨h1, h2, h3⟩, by simp, fun _ _ => rfl⟩
        · rw [if_neg hse]
          have hk : (s.take (min len s.length)).length = min len s.length := by rw [List.length_take]; omega
          have hm : Mapped m base (s.take (min len s.length)).length := by
            rw [hk]
            exact h1.mapped.mono (by omega)
          have h4 : Uio.Holds (patch m base (s.take (min len s.length))) vs bs := by
            refine h3.congr ?_
            intro w hw a h5 h6
            apply patch_out
            have := ha.1 w hw
            simp only [Disjoint] at this
            omega
          have hrest : (s.drop (min len s.length)).length ≤ bs.flatten.length := by
            rw [List.length_drop]
            omega
          obtain ⟨m', new, e1, e2, e3, e4⟩ := ih h4 ha.2 hz' (s := s.drop (min len s.length)) hrest
          have hold : ∀ a, base ≤ a → a < base + len → m' a = patch m base (s.take (min len s.length)) a := by
            intro a h5 h6
            apply e4
            intro w hw
            have := ha.1 w hw
            simp only [Disjoint] at this
            omega
          refine ⟨m', (s.take (min len s.length) ++ b.drop (min len s.length)) :: new, ?_, ⟨?_, ?_, e2⟩, ?_, ?_⟩
          · simp only [writeN_eq hm, Option.bind_eq_bind, Option.bind_some, e1, List.length_drop]
            congr 3
            omega
          · have hb : Bytes (patch m base (s.take (min len s.length))) base (s.take (min len s.length) ++ b.drop (min len s.length)) := by
              rw [bytes_append]
              refine ⟨bytes_patch _ _ _, ?_⟩
              rw [hk]
              have : Bytes m (base + min len s.length) (b.drop (min len s.length)) := by
                have h7 := h1
                rw [← List.take_append_drop (min len s.length) b, bytes_append] at h7
                have := h7.2
                rwa [show (b.take (min len s.length)).length = min len s.length by rw [List.length_take]; omega] at this
              refine this.patch_disjoint ?_
              rw [hk]
              simp only [Disjoint]
              omega
            refine hb.congr fun a h5 h6 => hold a h5 ?_
            simp only [List.length_append, List.length_drop] at h6
            omega
          · show _ = len
            rw [List.length_append, hk, List.length_drop]
            omega
          · simp only [List.flatten_cons, e3, List.length_drop]
            by_cases hlt : len ≤ s.length
            · have hb1 : b.drop len = [] := List.drop_of_length_le (by omega)
              have hb2 : b.drop s.length = [] := List.drop_of_length_le (by omega)
              rw [show min len s.length = len by omega, hb1, List.append_nil, ← List.append_assoc, List.take_append_drop,
                List.drop_append, hb2, List.nil_append, h2]
            · rw [show min len s.length = s.length by omega, List.take_of_length_le (Nat.le_refl _), List.drop_of_length_le (Nat.le_refl _), Nat.sub_self,
                List.nil_append, List.drop_zero, List.append_assoc, List.drop_append_of_le_length (by omega)]
          · intro a hout
            rw [e4 a fun w hw => hout w (by simp [hw])]
            apply patch_out
            have := hout (base, len) (by simp)
            simp only at this
            omega

/-- What `recvmsg` does with the name of the sender `nm`, the caller having room for `n` bytes: without a name `msg_namelen` becomes 0; the
address of an internet socket is stored if the caller wants it. -/
def NameStored (m : Mem UInt8) (msg : Msg) (n : Nat) (nm : List UInt8) (m1 : Mem UInt8) : Prop :=
  (nm = [] ∧ m1 = patch m msg.lenp (leBytes 4 0))
  ∨ (nm ≠ [] ∧ 0 < n ∧ msg.name = 0 ∧ m1 = m)
  ∨ (∃ pre a b c d port, InetPrefix pre ∧ port < 65536 ∧ nm = pre ++ hostPort a b c d port ∧ 0 < n ∧ msg.name ≠ 0 ∧ Mapped m msg.name (min n 16)
      ∧ m1 = patch (patch m msg.name ((sin a b c d port ++ [0, 0, 0, 0, 0, 0, 0, 0]).take n)) msg.lenp (leBytes 4 (min n 16)))

theorem recvName_eq {m m1 : Mem UInt8} {msg : Msg} {n : Nat} {nm : List UInt8} (hn : Int4 m msg.lenp n) (h : NameStored m msg n nm m1)
    (hl : nm.length < 2 ^ 64) (fl : UInt32) (rest : List UInt8) :
    recvName m { msg with flags := fl } n (leBytes 8 nm.length ++ (nm ++ rest)) = some (.ok rest, m1) := by
  unfold recvName
  simp only [readNum_le nm.length hl, le_drop]
  rcases h with ⟨rfl, rfl⟩ | ⟨hne, hpos, h0, rfl⟩ | ⟨pre, a, b, c, d, port, hpre, hp, hnm, hpos, h0, hm, rfl⟩
  · have : Mapped m msg.lenp 4 := by
      have := hn.2.mapped
      rwa [leBytes_length] at this
    simp [writeN_eq (l := leBytes 4 0) (by rwa [leBytes_length])]
  · have := List.length_pos_iff.2 hne
    rw [if_pos (by omega), if_neg (by simp only [List.length_append]; omega), if_neg (by simp), if_neg (by simp [h0])]
    simp
  · have hlen : 0 < nm.length := by
      rw [hnm]
      simp [hostPort]
      omega
    rw [if_pos (by omega), if_neg (by simp only [List.length_append]; omega), if_neg (by simp), if_pos ⟨h0, hpos⟩, List.take_left, List.drop_left, hnm,
      inet_name hpre, innerAfInet_eq (rest := []) (a := a) (b := b) (c := c) (d := d) (port := port) ?_ hp hn hm]
    · rfl
    · simp only [Bool.false_eq_true, if_false]
      have := split_first (hostPort_parts a b c d port).2.1 (tail := []) (.inl rfl)
      rwa [List.append_nil] at this

/-- The stream from the scheme, with the control messages left open. -/
def stream (nm payload : List UInt8) (whole : Nat) (ctl : List UInt8) : List UInt8 :=
  leBytes 8 nm.length ++ (nm ++ (leBytes 8 payload.length ++ (payload.take whole ++ ctl)))

/-- `recvmsg` up to the control messages. -/
theorem recv_prefix (sch : Scheme σ) {m m1 : Mem UInt8} {msg : Msg} {n : Nat} {nm payload ctl : List UInt8} {old : List (List UInt8)} {st st1 : σ}
    {flags : UInt32} (hn : Int4 m msg.lenp n) (hname : NameStored m msg n nm m1) (hl : nm.length < 2 ^ 64) (hpl : payload.length < 2 ^ 64)
    (hiov : Uio.Holds m1 msg.iov old) (ha : Uio.Apart msg.iov) (hz : ∀ v ∈ msg.iov, v.1 ≠ 0)
    (hs : sch.recv st flags n old.flatten.length msg.controllen (64 + 8 + n + 8 + old.flatten.length + 8 + msg.controllen)
      = .ok (stream nm payload old.flatten.length ctl, st1))
    (hsize : (stream nm payload old.flatten.length ctl).length ≤ 64 + 8 + n + 8 + old.flatten.length + 8 + msg.controllen) :
    ∃ m2 new, Uio.Holds m2 msg.iov new ∧ new.flatten = payload.take old.flatten.length ++ old.flatten.drop payload.length
      ∧ (∀ a, (∀ v ∈ msg.iov, a < v.1 ∨ v.1 + v.2 ≤ a) → m2 a = m1 a)
      ∧ recvmsg sch m st msg flags =
        if msg.control ≠ 0 ∧ msg.controllen > 0 ∧ ctl ≠ [] then do
          match ← recvControl sch m2 st1 { msg with flags := if old.flatten.length < payload.length then 32 else 0 } flags ctl with
          | (.error e, msg, m, st) => some (.error e, msg, m, st)
          | (.ok (), msg, m, st) => some (.ok (min payload.length old.flatten.length), msg, m, st)
        else some (.ok (min payload.length old.flatten.length),
          { msg with flags := if old.flatten.length < payload.length then 32 else 0, controllen := 0 }, m2, st1) := by
  have hw := iovSize_eq hiov
  have hread : readInt m msg.lenp 4 = some n := readInt_of hn.2 (by have := hn.1; omega)
  have htk : (payload.take old.flatten.length).length = min payload.length old.flatten.length := by rw [List.length_take]; omega
  obtain ⟨m2, new, e1, e2, e3, e4⟩ := scatterIov_eq hiov ha hz (s := payload.take old.flatten.length) (by omega)
  have hnew : new.flatten = payload.take old.flatten.length ++ old.flatten.drop payload.length := by
    rw [e3, htk]
    congr 1
    by_cases hc : payload.length ≤ old.flatten.length
    · rw [show min payload.length old.flatten.length = payload.length by omega]
    · rw [show min payload.length old.flatten.length = old.flatten.length by omega, List.drop_of_length_le (Nat.le_refl _),
        List.drop_of_length_le (by omega)]
  have hpay : ∃ m2 new, Uio.Holds m2 msg.iov new ∧ new.flatten = payload.take old.flatten.length ++ old.flatten.drop payload.length
      ∧ (∀ a, (∀ v ∈ msg.iov, a < v.1 ∨ v.1 + v.2 ≤ a) → m2 a = m1 a)
      ∧ recvPayload m1 msg.iov (leBytes 8 payload.length ++ (payload.take old.flatten.length ++ ctl))
        = some (.ok (min payload.length old.flatten.length, decide (old.flatten.length < payload.length), ctl), m2) := by
    unfold recvPayload
    simp only [readNum_le payload.length hpl, le_drop, hw]
    by_cases hpos : min payload.length old.flatten.length > 0
    · refine ⟨m2, new, e2, hnew, e4, ?_⟩
      have hne : msg.iov ≠ [] := by
        intro h0
        rw [h0] at hw
        simp only [iovSize, List.map_nil, List.sum_nil] at hw
        omega
      rw [if_neg (by simp only [List.length_append]; omega), if_pos ⟨hne, hpos⟩, ← htk, List.take_left, List.drop_left, e1]
      rfl
    · refine ⟨m1, old, hiov, ?_, fun _ _ => rfl, ?_⟩
      · have h0 : payload.take old.flatten.length = [] := List.length_eq_zero_iff.1 (by omega)
        rw [h0, List.nil_append]
        by_cases hc : payload.length = 0
        · rw [hc, List.drop_zero]
        · rw [List.drop_of_length_le (by omega)]
          exact List.length_eq_zero_iff.1 (by omega)
      · rw [if_neg (by simp only [List.length_append]; omega), if_neg (by omega), ← htk, List.drop_left]
        simp only [Option.bind_eq_bind, Option.bind_some]
        rw [htk, show min payload.length old.flatten.length = 0 by omega]
  obtain ⟨m2, new, g1, g2, g3, g4⟩ := hpay
  refine ⟨m2, new, g1, g2, g3, ?_⟩
  unfold recvmsg
  simp only [hread, Option.bind_eq_bind, Option.bind_some, hw, hs, List.take_of_length_le hsize]
  rw [stream, recvName_eq hn hname hl]
  simp only [Option.bind_some, g4]
  by_cases hlong : old.flatten.length < payload.length
  · simp only [decide_eq_true hlong, if_true, if_pos hlong]
    rfl
  · simp only [decide_eq_false hlong, Bool.false_eq_true, if_false, if_neg hlong]
    rfl

/-! ## C113: receiving -/

/-- The buffers of a message do not overlap the control buffer. -/
def ControlApart (msg : Msg) : Prop := ∀ v ∈ msg.iov, Disjoint v.1 v.2 msg.control msg.controllen

theorem used_pos {cs : List Ctl} (h : cs ≠ []) : 16 ≤ used cs := by
  cases cs with
  | nil => exact absurd rfl h
  | cons c r =>
    simp only [used, List.map_cons, List.sum_cons, room]
    omega

theorem inn_ne {cs : List Ctl} (h : cs ≠ []) : cs.flatMap Ctl.inn ≠ [] := by
  cases cs with
  | nil => exact absurd rfl h
  | cons c r => simp [Ctl.inn, leBytes]

/-- C113, `recvmsg` with room for all control messages: the payload is stored in the buffers in order, cut off at their size (then `MSG_TRUNC`
is set); the control messages are stored in the control buffer so that `CMSG_FIRSTHDR` and `CMSG_NXTHDR` find exactly them, with the descriptors
the scheme has delivered; `msg_controllen` is the room they take; and nothing else is written, apart from the name. Missing: names of Unix
sockets, and names where `msg_namelen` is 0 (`C113_name_violation`). -/
theorem C113_recv_partial (sch : Scheme σ) {m m1 : Mem UInt8} {msg : Msg} {n : Nat} {nm payload : List UInt8} {old : List (List UInt8)}
    {cs : List Ctl} {st st1 st2 : σ} {flags : UInt32}
    (hn : Int4 m msg.lenp n) (hname : NameStored m msg n nm m1) (hl : nm.length < 2 ^ 64) (hpl : payload.length < 2 ^ 64)
    (hiov : Uio.Holds m1 msg.iov old) (ha : Uio.Apart msg.iov) (hz : ∀ v ∈ msg.iov, v.1 ≠ 0)
    (hs : sch.recv st flags n old.flatten.length msg.controllen (64 + 8 + n + 8 + old.flatten.length + 8 + msg.controllen)
      = .ok (stream nm payload old.flatten.length (cs.flatMap Ctl.inn), st1))
    (hsize : (stream nm payload old.flatten.length (cs.flatMap Ctl.inn)).length ≤ 64 + 8 + n + 8 + old.flatten.length + 8 + msg.controllen)
    (hok : ∀ c ∈ cs, c.Ok) (ht : Taken sch (flags &&& 0x40000000 == 0x40000000) st1 cs st2)
    (hroom : used cs ≤ msg.controllen) (hc0 : msg.control ≠ 0) (hcm : Mapped m1 msg.control msg.controllen) (hapart : ControlApart msg) :
    ∃ m' new msg', recvmsg sch m st msg flags = some (.ok (min payload.length old.flatten.length), msg', m', st2)
      ∧ Uio.Holds m' msg.iov new ∧ new.flatten = payload.take old.flatten.length ++ old.flatten.drop payload.length
      ∧ Placed m' msg.control cs ∧ msg'.controllen = used cs
      ∧ msg'.flags = (if old.flatten.length < payload.length then 32 else 0)
      ∧ ∀ a, (∀ v ∈ msg.iov, a < v.1 ∨ v.1 + v.2 ≤ a) → (a < msg.control ∨ msg.control + used cs ≤ a) → m' a = m1 a := by
  obtain ⟨m2, new, g1, g2, g3, g4⟩ := recv_prefix sch hn hname hl hpl hiov ha hz hs hsize
  by_cases hcs : cs = []
  · subst hcs
    cases ht
    rw [if_neg (by simp)] at g4
    exact ⟨m2, new, _, g4, g1, g2, trivial, rfl, rfl, fun a h1 _ => g3 a h1⟩
  · have hup := used_pos hcs
    rw [if_pos ⟨hc0, by omega, inn_ne hcs⟩] at g4
    have hm2 : Mapped m2 msg.control msg.controllen := by
      intro i hi
      by_cases hin : ∃ v ∈ msg.iov, v.1 ≤ msg.control + i ∧ msg.control + i < v.1 + v.2
      · obtain ⟨v, hv, h1, h2⟩ := hin
        have := hapart v hv
        simp only [Disjoint] at this
        omega
      · rw [g3]
        · exact hcm i hi
        · intro v hv
          by_cases h1 : v.1 ≤ msg.control + i
          · right
            by_cases h2 : msg.control + i < v.1 + v.2
            · exact absurd ⟨v, hv, h1, h2⟩ hin
            · omega
          · left
            omega
    have hmsg : ∀ (msg' : Msg), msg' = { msg with flags := if old.flatten.length < payload.length then 32 else 0 } →
        ∃ m' , recvControl sch m2 st1 msg' flags (cs.flatMap Ctl.inn) = some (.ok (), { msg' with controllen := used cs }, m', st2)
          ∧ Placed m' msg.control cs ∧ ∀ a, a < msg.control ∨ msg.control + used cs ≤ a → m' a = m2 a := by
      intro msg' hmsg'
      have ec : msg'.control = msg.control := by rw [hmsg']
      have ecl : msg'.controllen = msg.controllen := by rw [hmsg']
      obtain ⟨m', st3, f1, f2, f3, f4, _⟩ := recvCmsgs_all sch (msg := msg') (flags := flags) (fl := msg'.flags) (by rwa [ec]) [] (cs := cs) (ds := [])
        (m := m2) (off := 0) (st := st1) (st' := st2) hok (by rw [List.append_nil]; exact ht) (by omega) (by rw [ec, ecl]; exact hm2)
      cases f1
      refine ⟨m', ?_, ?_, ?_⟩
      · rw [List.append_nil] at f2
        unfold recvControl
        rw [ec, ecl, if_pos ⟨hc0, by omega⟩, cmsgFirst, ecl, ec, if_pos (by omega)]
        rw [if_pos (by omega), ec, ecl] at f2
        simp only [Nat.add_zero, Nat.sub_zero] at f2
        dsimp only
        rw [f2]
        unfold recvCmsgs
        rw [if_pos rfl]
        simp
      · rw [ec] at f3
        exact f3
      · intro a h
        apply f4
        rw [ec]
        omega
    obtain ⟨m', e1, e2, e3⟩ := hmsg _ rfl
    rw [e1] at g4
    refine ⟨m', new, _, g4, ?_, g2, e2, rfl, rfl, ?_⟩
    · refine g1.congr fun v hv a h1 h2 => e3 a ?_
      have := hapart v hv
      simp only [Disjoint] at this
      omega
    · intro a h1 h2
      rw [e3 a h2, g3 a h1]

/-- C113, `recvmsg` with room for some of the control messages: those are stored, `msg_controllen` is the room they take and `MSG_CTRUNC` is set.
(C113 fails here: the descriptors of the first control message which does not fit are taken from the scheme all the same, so they are open
afterwards, but the program is not told their numbers.) -/
theorem C113_leak_violation (sch : Scheme σ) {m m1 : Mem UInt8} {msg : Msg} {n : Nat} {nm payload more : List UInt8} {old : List (List UInt8)}
    {cs : List Ctl} {fds : List Nat} {st st1 st2 : σ} {flags : UInt32}
    (hn : Int4 m msg.lenp n) (hname : NameStored m msg n nm m1) (hl : nm.length < 2 ^ 64) (hpl : payload.length < 2 ^ 64)
    (hiov : Uio.Holds m1 msg.iov old) (ha : Uio.Apart msg.iov) (hz : ∀ v ∈ msg.iov, v.1 ≠ 0)
    (hs : sch.recv st flags n old.flatten.length msg.controllen (64 + 8 + n + 8 + old.flatten.length + 8 + msg.controllen)
      = .ok (stream nm payload old.flatten.length (cs.flatMap Ctl.inn ++ ((Ctl.rights fds).inn ++ more)), st1))
    (hsize : (stream nm payload old.flatten.length (cs.flatMap Ctl.inn ++ ((Ctl.rights fds).inn ++ more))).length
      ≤ 64 + 8 + n + 8 + old.flatten.length + 8 + msg.controllen)
    (hok : ∀ c ∈ cs ++ [.rights fds], c.Ok) (ht : Taken sch (flags &&& 0x40000000 == 0x40000000) st1 (cs ++ [.rights fds]) st2)
    (hroom : used cs ≤ msg.controllen) (hfull : msg.controllen < used (cs ++ [.rights fds])) (hpos : 0 < msg.controllen)
    (hc0 : msg.control ≠ 0) (hcm : Mapped m1 msg.control msg.controllen) (hapart : ControlApart msg) :
    ∃ m' msg', recvmsg sch m st msg flags = some (.ok (min payload.length old.flatten.length), msg', m', st2)
      ∧ Placed m' msg.control cs ∧ msg'.controllen = used cs ∧ msg'.flags &&& 8 = 8
      ∧ ∀ a, (∀ v ∈ msg.iov, a < v.1 ∨ v.1 + v.2 ≤ a) → (a < msg.control ∨ msg.control + used cs ≤ a) → m' a = m1 a := by
  obtain ⟨m2, new, g1, g2, g3, g4⟩ := recv_prefix sch hn hname hl hpl hiov ha hz hs hsize
  rw [if_pos ⟨hc0, hpos, by simp [Ctl.inn, leBytes]⟩] at g4
  have hm2 : Mapped m2 msg.control msg.controllen := by
    intro i hi
    rw [g3]
    · exact hcm i hi
    · intro v hv
      have := hapart v hv
      simp only [Disjoint] at this
      omega
  have hu : used (cs ++ [.rights fds]) = used cs + room (Ctl.rights fds).data.length := by simp [used]
  have hmsg : ∀ (msg' : Msg), msg' = { msg with flags := if old.flatten.length < payload.length then 32 else 0 } →
      ∃ m' , recvControl sch m2 st1 msg' flags (cs.flatMap Ctl.inn ++ ((Ctl.rights fds).inn ++ more))
          = some (.ok (), { msg' with controllen := used cs, flags := msg'.flags ||| 8 }, m', st2)
        ∧ Placed m' msg.control cs ∧ ∀ a, a < msg.control ∨ msg.control + used cs ≤ a → m' a = m2 a := by
    intro msg' hmsg'
    have ec : msg'.control = msg.control := by rw [hmsg']
    have ecl : msg'.controllen = msg.controllen := by rw [hmsg']
    obtain ⟨m', st3, f1, f2, f3, f4, _⟩ := recvCmsgs_all sch (msg := msg') (flags := flags) (fl := msg'.flags) (by rwa [ec])
      ((Ctl.rights fds).inn ++ more) (cs := cs) (ds := [.rights fds])
      (m := m2) (off := 0) (st := st1) (st' := st2) (fun c hc => hok c (by simp [hc])) ht (by omega) (by rw [ec, ecl]; exact hm2)
    refine ⟨m', ?_, ?_, ?_⟩
    · rw [ec, ecl] at f2
      simp only [Nat.add_zero, Nat.sub_zero, Nat.zero_add] at f2
      obtain ⟨st4, h1, h2⟩ := recvCmsgs_step sch (msg := msg') (flags := flags)
        (x := ⟨m', if used cs + 16 ≤ msg.controllen then msg.control + used cs else 0, msg.controllen - used cs, used cs, msg'.flags, st3⟩)
        more (hok _ (by simp)) f1
      cases h1
      have hneg : ¬ ((if used cs + 16 ≤ msg.controllen then msg.control + used cs else 0) ≠ 0
          ∧ msg.controllen - used cs ≥ room (Ctl.rights fds).data.length) := by omega
      dsimp only at h2
      rw [if_neg hneg] at h2
      unfold recvControl
      rw [ec, ecl, if_pos ⟨hc0, hpos⟩, cmsgFirst, ecl, ec]
      dsimp only
      rw [f2, h2]
      rfl
    · rw [ec] at f3
      exact f3
    · intro a h
      apply f4
      rw [ec]
      omega
  obtain ⟨m', e1, e2, e3⟩ := hmsg _ rfl
  rw [e1] at g4
  refine ⟨m', _, g4, e2, rfl, ?_, ?_⟩
  · show ((if old.flatten.length < payload.length then 32 else 0) ||| 8) &&& 8 = (8 : UInt32)
    split <;> decide
  · intro a h1 h2
    rw [e3 a h2, g3 a h1]

/-- C113 fails without a control buffer: control messages are dropped without `MSG_CTRUNC`, and their descriptors stay with the scheme. -/
theorem C113_ctrunc_violation (sch : Scheme σ) {m m1 : Mem UInt8} {msg : Msg} {n : Nat} {nm payload ctl : List UInt8} {old : List (List UInt8)}
    {st st1 : σ} {flags : UInt32}
    (hn : Int4 m msg.lenp n) (hname : NameStored m msg n nm m1) (hl : nm.length < 2 ^ 64) (hpl : payload.length < 2 ^ 64)
    (hiov : Uio.Holds m1 msg.iov old) (ha : Uio.Apart msg.iov) (hz : ∀ v ∈ msg.iov, v.1 ≠ 0)
    (hs : sch.recv st flags n old.flatten.length msg.controllen (64 + 8 + n + 8 + old.flatten.length + 8 + msg.controllen)
      = .ok (stream nm payload old.flatten.length ctl, st1))
    (hsize : (stream nm payload old.flatten.length ctl).length ≤ 64 + 8 + n + 8 + old.flatten.length + 8 + msg.controllen)
    (hfit : payload.length ≤ old.flatten.length) (hc : msg.control = 0 ∨ msg.controllen = 0) :
    ∃ m' msg', recvmsg sch m st msg flags = some (.ok payload.length, msg', m', st1) ∧ msg'.flags = 0 := by
  obtain ⟨m2, new, g1, g2, g3, g4⟩ := recv_prefix sch hn hname hl hpl hiov ha hz hs hsize
  rw [if_neg (by omega), show min payload.length old.flatten.length = payload.length by omega, if_neg (by omega)] at g4
  exact ⟨m2, _, g4, rfl⟩

/-! ### Where it fails -/

/-- C113 fails for `sendmsg` with a destination: `msg_name` is not looked at, so the scheme never learns of it. -/
theorem C113_dest_violation (sch : Scheme σ) (m : Mem UInt8) (st : σ) (msg : Msg) (flags : UInt32) (name lenp : Nat) :
    sendmsg sch m st { msg with name := name, lenp := lenp } flags = sendmsg sch m st msg flags := by
  have e : ∀ st p, sendCmsgs sch m { msg with name := name, lenp := lenp } st p = sendCmsgs sch m msg st p := by
    intro st p
    induction hk : msg.control + msg.controllen - p using Nat.strongRecOn generalizing p st with
    | _ k ih =>
      conv => lhs; unfold sendCmsgs
      conv => rhs; unfold sendCmsgs
      split
      · rfl
      · simp only [Option.bind_eq_bind]
        congr 1
        funext len
        congr 1
        funext level
        congr 1
        funext type
        split
        · rfl
        · congr 1
          funext x
          obtain ⟨r, st'⟩ := x
          cases r with
          | error e => rfl
          | ok data =>
            dsimp only
            split
            · rfl
            · rw [ih _ (by simp only [cmsgAlign] at *; omega) _ _ rfl]
  simp only [sendmsg, sendPayload, sendControl, cmsgFirst, e]

/-- C113 fails for a message without buffers: its stream does not have the length of the payload in front, but begins with the control
messages. -/
theorem C113_empty_violation (sch : Scheme σ) {m : Mem UInt8} {msg : Msg} {cs : List Ctl} {st st1 st2 : σ} {flags : UInt32}
    (hiov : msg.iov = []) (hc : ControlIs m msg cs) (hg : Given sch st cs st1) (hs : sch.send st1 flags (cs.flatMap Ctl.out) = .ok st2) :
    sendmsg sch m st msg flags = some (.ok 0, st2) := by
  have e3 := sendControl_eq sch hc hg
  simp [sendmsg, sendPayload, hiov, e3, hs, iovSize]

/-- A scheme which keeps what it is given, and delivers the stream `inn`. -/
def toyScheme (inn : List UInt8) : Scheme (List Nat × List UInt8) where
  give st fds := .ok (st.1 ++ fds, st.2)
  take st n _ := .ok (st.1.take n, (st.1.drop n, st.2))
  send st _ s := .ok (st.1, s)
  recv st _ _ _ _ _ := .ok (inn, st)

/-- One descriptor to send at 100, followed by a control message of an unknown type at 124. -/
def toyMem2 : Mem UInt8 :=
  ofList 100 (leBytes 8 20 ++ leBytes 4 1 ++ leBytes 4 1 ++ leBytes 4 7 ++ [0, 0, 0, 0] ++ leBytes 8 16 ++ leBytes 4 1 ++ leBytes 4 9
    ++ [104, 105] ++ List.replicate 14 0)

/-- C113 fails for errors of `sendmsg`: descriptors of the control messages in front of the one which is refused have been given to the scheme
already, with no message they belong to. -/
theorem C113_error_violation : (sendmsg (toyScheme []) toyMem2 ([], []) ⟨0, 0, [(140, 2)], 100, 40, 0⟩ 0).map (fun r => (r.1.toOption, r.2))
    = some (none, ([7], [])) := by decide +kernel

/-- C113 fails for a control message which says it is longer than the control buffer: the bytes behind the buffer are sent as descriptors. Here
the buffer ends at 120, behind the first descriptor, and the length says that there are two. -/
theorem C113_overrun_violation :
    (sendmsg (toyScheme []) (ofList 100 (leBytes 8 24 ++ leBytes 4 1 ++ leBytes 4 1 ++ leBytes 4 7 ++ leBytes 4 8)) ([], []) ⟨0, 0, [], 100, 20, 0⟩ 0).map
      (fun r => (r.1.toOption, r.2.1)) = some (some 0, [7, 8]) := by decide +kernel

/-- The stream of a datagram `hi` from the sender `udp:1.2.3.4:5`. -/
def toyStream : List UInt8 := stream (text "udp:1.2.3.4:5") (text "hi") 4 []

/-- C113 fails if the scheme sends the name of the sender although the caller has no room for it (`msg_namelen` is 0): the name is taken for
the payload. -/
theorem C113_name_violation :
    (recvmsg (toyScheme toyStream) (ofList 8 ([0, 0, 0, 0, 1, 1, 1, 1])) ([], []) ⟨0, 8, [(12, 4)], 0, 0, 0⟩ 0).bind
      (fun r => (readN r.2.2.1 12 4).map fun l => (r.1.toOption, l)) = some (some 4, text "3.4:") := by decide +kernel

/-! ## Examples -/

/-- Sending `hi` with the descriptor 7. -/
example : (sendmsg (toyScheme []) toyMem2 ([], []) ⟨0, 0, [(140, 2)], 100, 24, 0⟩ 0).map (fun r => (r.1.toOption, r.2))
    = some (some 2, ([7], leBytes 8 2 ++ [104, 105] ++ (Ctl.rights [7]).out)) := by decide +kernel

/-- Receiving `hi` with the descriptor 7, into buffers of one and four bytes and a control buffer of 24. -/
example : (recvmsg (toyScheme (stream [] [104, 105] 5 (Ctl.rights [7]).inn)) (ofList 8 ([0, 0, 0, 0] ++ List.replicate 40 1)) ([7, 8], [])
    ⟨0, 8, [(12, 1), (14, 4)], 20, 24, 0⟩ 0).bind (fun r => (readN r.2.2.1 12 30).map fun l => (r.1.toOption, l, r.2.1.controllen, r.2.2.2.1))
    = some (some 2, [104, 1, 105, 1, 1, 1, 1, 1] ++ leBytes 8 20 ++ leBytes 4 1 ++ leBytes 4 1 ++ leBytes 4 7 ++ [1, 1], 24, [8]) := by decide +kernel

end Verif.Socket

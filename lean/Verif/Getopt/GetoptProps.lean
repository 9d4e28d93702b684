import Verif.Getopt.GetoptModel
/-!
# `getopt` (C44)
-/

namespace Verif.Getopt

/-! ## Specification

What POSIX says about the parsing of an argument vector, as a list of events. -/

/-- What an option character means: `none` = not an option; otherwise whether it takes an argument. -/
def Means (optstring : List UInt8) (c : UInt8) (x : Option Bool) : Prop :=
  match x with
  | none => c = 0x3A ∨ c ∉ optstring
  | some a => c ≠ 0x3A ∧ ∃ u v, optstring = u ++ c :: v ∧ c ∉ u ∧ (a = true ↔ v.head? = some 0x3A)

/-- One thing `getopt` reports. -/
inductive Event where
  /-- An option, with the place of its argument. -/
  | opt (c : UInt8) (arg : Option Ptr)
  | illegal (c : UInt8)
  | missing (c : UInt8)
deriving DecidableEq

mutual
/-- `Args opts i args es n`: the arguments `args`, the first of which has number `i`, give the events `es`, and `n` is the
number of the first operand. -/
inductive Args (opts : List UInt8) : Nat → List (List UInt8) → List Event → Nat → Prop
  | nil (i : Nat) : Args opts i [] [] i
  | operand (i : Nat) {a : List UInt8} (rest : List (List UInt8)) :
      a = [0x2D] ∨ a.head? ≠ some 0x2D → Args opts i (a :: rest) [] i
  | stop (i : Nat) (rest : List (List UInt8)) : Args opts i ([0x2D, 0x2D] :: rest) [] (i + 1)
  | options {i n : Nat} {c : UInt8} {t : List UInt8} {rest : List (List UInt8)} {es : List Event} :
      c :: t ≠ [0x2D] → Cluster opts i 1 (c :: t) rest es n → Args opts i ((0x2D :: c :: t) :: rest) es n
/-- The same for the rest `cur`, at offset `off`, of the option characters in argument `i`. -/
inductive Cluster (opts : List UInt8) : Nat → Nat → List UInt8 → List (List UInt8) → List Event → Nat → Prop
  | nil {i off n : Nat} {rest : List (List UInt8)} {es : List Event} : Args opts (i + 1) rest es n → Cluster opts i off [] rest es n
  | flag {i off n : Nat} {c : UInt8} {t : List UInt8} {rest : List (List UInt8)} {es : List Event} : Means opts c (some false) →
      Cluster opts i (off + 1) t rest es n → Cluster opts i off (c :: t) rest (.opt c none :: es) n
  | illegal {i off n : Nat} {c : UInt8} {t : List UInt8} {rest : List (List UInt8)} {es : List Event} : Means opts c none →
      Cluster opts i (off + 1) t rest es n → Cluster opts i off (c :: t) rest (.illegal c :: es) n
  | inside {i off n : Nat} {c b : UInt8} {t : List UInt8} {rest : List (List UInt8)} {es : List Event} : Means opts c (some true) →
      Args opts (i + 1) rest es n → Cluster opts i off (c :: b :: t) rest (.opt c (some (i, off + 1)) :: es) n
  | next {i off n : Nat} {c : UInt8} {a : List UInt8} {rest : List (List UInt8)} {es : List Event} : Means opts c (some true) →
      Args opts (i + 2) rest es n → Cluster opts i off [c] (a :: rest) (.opt c (some (i + 1, 0)) :: es) n
  | missing {i off : Nat} {c : UInt8} : Means opts c (some true) → Cluster opts i off [c] [] [.missing c] (i + 2)
end

/-- What a call returns, the value of `optarg` after it, and that of `optopt` (which had the value given). -/
def Event.result (opts : List UInt8) (optopt : Int32) : Event → Int32 × Option Ptr × Int32
  | .opt c p => (charInt c, p, optopt)
  | .illegal c => (0x3F, none, charInt c)
  | .missing c => (if opts.head? = some 0x3A then 0x3A else 0x3F, none, charInt c)

/-- The results of the calls that report the events and then the end. -/
def results (opts : List UInt8) (optopt : Int32) : List Event → List (Int32 × Option Ptr × Int32)
  | [] => [(-1, none, optopt)]
  | e :: es => e.result opts optopt :: results opts (e.result opts optopt).2.2 es

/-- `k` calls of `getopt`: the results and the state. -/
def calls (argv : List (List UInt8)) (opts : List UInt8) (st : St) : Nat → Option (List (Int32 × Option Ptr × Int32) × St)
  | 0 => some ([], st)
  | k + 1 => do
    let (r, st) ← st.getopt argv opts
    let (rs, st') ← calls argv opts st k
    some ((r, st.optarg, st.optopt) :: rs, st')

/-! ## Lemmas -/

theorem find_some {c : UInt8} {opts : List UInt8} {a : Bool} (h : findOption c opts = some a) :
    ∃ u v, opts = u ++ c :: v ∧ c ∉ u ∧ (a = true ↔ v.head? = some 0x3A) := by
  induction opts with
  | nil => cases h
  | cons b t ih =>
    rw [findOption] at h
    split at h
    · rename_i hb
      subst hb
      cases h
      exact ⟨[], t, rfl, by simp, by simp⟩
    · rename_i hb
      obtain ⟨u, v, e, hu, ha⟩ := ih h
      exact ⟨b :: u, v, by rw [e]; rfl, by simp only [List.mem_cons, not_or]; exact ⟨Ne.symm hb, hu⟩, ha⟩

theorem find_none {c : UInt8} {opts : List UInt8} : findOption c opts = none ↔ c ∉ opts := by
  induction opts with
  | nil => simp [findOption]
  | cons b t ih =>
    rw [findOption]
    by_cases hb : b = c
    · simp [hb]
    · simp only [hb, if_false, ih, List.mem_cons, not_or]
      exact ⟨fun h => ⟨Ne.symm hb, h⟩, fun h => h.2⟩

theorem find_of {c : UInt8} {opts u v : List UInt8} (e : opts = u ++ c :: v) (hu : c ∉ u) :
    findOption c opts = some (decide (v.head? = some 0x3A)) := by
  subst e
  induction u with
  | nil => simp [findOption]
  | cons b t ih =>
    simp only [List.mem_cons, not_or] at hu
    rw [List.cons_append, findOption, if_neg (Ne.symm hu.1), ih hu.2]

theorem means_some {c : UInt8} {opts : List UInt8} {a : Bool} (h : Means opts c (some a)) : findOption c opts = some a := by
  obtain ⟨_, u, v, e, hu, ha⟩ := h
  rw [find_of e hu]
  cases a <;> simp_all

theorem means_none {c : UInt8} {opts : List UInt8} (h : Means opts c none) (hc : c ≠ 0x3A) : findOption c opts = none := by
  rcases h with h | h
  · exact absurd h hc
  · exact find_none.2 h

/-- Whatever the option string, a character means one thing. -/
theorem means_total (opts : List UInt8) (c : UInt8) : ∃ x, Means opts c x := by
  by_cases hc : c = 0x3A
  · exact ⟨none, .inl hc⟩
  · cases h : findOption c opts with
    | none => exact ⟨none, .inr (find_none.1 h)⟩
    | some a => exact ⟨some a, hc, find_some h⟩

theorem textAt_succ {argv : List (List UInt8)} {i off : Nat} {c : UInt8} {t : List UInt8}
    (h : textAt argv (i, off) = c :: t) : textAt argv (i, off + 1) = t := by
  unfold textAt at *
  simp only at *
  rw [← List.drop_drop, h]
  rfl

/-- The state between two calls: `optind` is the number of the next argument, or of the one being parsed. -/
inductive At (argv : List (List UInt8)) (opts : List UInt8) (st : St) : List Event → Nat → Prop
  | arg {es : List Event} {n : Nat} : (∀ p, st.cur = some p → textAt argv p = []) → st.optind ≠ 0 →
      Args opts st.optind (argv.drop st.optind) es n → At argv opts st es n
  | cluster {es : List Event} {n off : Nat} : st.cur = some (st.optind, off) → st.optind ≠ 0 → textAt argv (st.optind, off) ≠ [] →
      Cluster opts st.optind off (textAt argv (st.optind, off)) (argv.drop (st.optind + 1)) es n → At argv opts st es n

theorem drop_cons {argv : List (List UInt8)} {i : Nat} {a : List UInt8} {rest : List (List UInt8)} (h : argv.drop i = a :: rest) :
    argv[i]? = some a ∧ argv.drop (i + 1) = rest ∧ i < argv.length := by
  have h1 : argv[i]? = some a := by
    have := congrArg List.head? h
    rw [List.head?_drop] at this
    exact this
  refine ⟨h1, ?_, (List.getElem?_eq_some_iff.1 h1).1⟩
  rw [← List.drop_drop, h]
  rfl

/-- After the character at `(i, off)` was handled. -/
theorem at_update {argv : List (List UInt8)} {opts : List UInt8} {st : St} {off n : Nat} {c : UInt8} {t : List UInt8}
    {es : List Event} (hi : st.optind ≠ 0) (ht : textAt argv (st.optind, off) = c :: t)
    (h : Cluster opts st.optind (off + 1) t (argv.drop (st.optind + 1)) es n) :
    At argv opts (st.update argv (st.optind, off)) es n := by
  have ht' := textAt_succ ht
  unfold St.update
  simp only [ht']
  by_cases hz : t = []
  · subst hz
    rw [if_pos rfl]
    cases h with
    | nil h =>
      refine .arg ?_ (by simp) h
      intro p hp
      cases hp
      exact ht'
  · rw [if_neg hz]
    refine .cluster rfl hi ?_ ?_
    · rw [ht']
      exact hz
    · rw [ht']
      exact h

/-- One call with an event to report. -/
theorem parse_step {argv : List (List UInt8)} {opts : List UInt8} {st : St} {off n : Nat} {es : List Event}
    (hi : st.optind ≠ 0) (hoa : st.optarg = none) (hne : textAt argv (st.optind, off) ≠ [])
    (h : Cluster opts st.optind off (textAt argv (st.optind, off)) (argv.drop (st.optind + 1)) es n)
    (hc : .illegal 0x3A ∉ es) :
    ∃ e es' r st', es = e :: es' ∧ st.parseArg argv opts (st.optind, off) = some (r, st') ∧ At argv opts st' es' n
      ∧ (r, st'.optarg, st'.optopt) = e.result opts st.optopt := by
  obtain ⟨c, t, ht⟩ := List.exists_cons_of_ne_nil hne
  unfold St.parseArg
  rw [ht] at h ⊢
  generalize hr : argv.drop (st.optind + 1) = rest at h
  cases h with
  | @flag _ _ _ _ _ _ es' h1 h2 =>
    refine ⟨_, es', charInt c, st.update argv (st.optind, off), rfl, ?_, ?_, ?_⟩
    · simp only [means_some h1]
    · exact at_update hi ht (by rw [hr]; exact h2)
    · unfold St.update
      simp only
      split <;> simp [Event.result, hoa]
  | @illegal _ _ _ _ _ _ es' h1 h2 =>
    have hcc : c ≠ 0x3A := by
      rintro rfl
      simp at hc
    obtain ⟨s1, e1, p1, p2⟩ : ∃ s1, (if st.opterr then { st with msgs := st.msgs ++ [.illegal c] } else st) = s1
        ∧ s1.optind = st.optind ∧ s1.optarg = none := by
      refine ⟨_, rfl, ?_⟩
      cases st.opterr
      · exact ⟨rfl, hoa⟩
      · exact ⟨rfl, hoa⟩
    refine ⟨_, es', 0x3F, { s1.update argv (st.optind, off) with optopt := charInt c }, rfl, ?_, ?_, ?_⟩
    · simp only [means_none h1 hcc, e1]
    · have h3 : At argv opts (s1.update argv (s1.optind, off)) es' n :=
        at_update (by rw [p1]; exact hi) (by rw [p1]; exact ht) (by rw [p1, hr]; exact h2)
      rw [p1] at h3
      generalize s1.update argv (st.optind, off) = s at h3 ⊢
      cases h3 with
      | arg a b c => exact .arg a b c
      | cluster a b c d => exact .cluster a b c d
    · unfold St.update
      simp only
      split <;> simp [Event.result, p2]
  | @inside _ _ _ _ b t' _ es' h1 h2 =>
    refine ⟨_, es', charInt c, _, rfl, by simp only [means_some h1, List.cons_ne_nil, if_false]; rfl, ?_, ?_⟩
    · exact .arg nofun (by simp) (by simpa [hr] using h2)
    · rfl
  | @next _ _ _ _ a rest' es' h1 h2 =>
    have hlen := (drop_cons hr).2.2
    refine ⟨_, es', charInt c, { st with cur := none, optind := st.optind + 2, optarg := some (st.optind + 1, 0) }, rfl, ?_, ?_, ?_⟩
    · simp only [means_some h1, if_true, if_neg (show ¬ st.optind + 2 > argv.length by omega)]
      rfl
    · exact .arg nofun (by simp) (by simpa [(drop_cons hr).2.1] using h2)
    · rfl
  | missing h1 =>
    have hlen : st.optind + 2 > argv.length := by
      have := List.drop_eq_nil_iff.1 hr
      omega
    have hnil : argv.drop (st.optind + 2) = [] := List.drop_eq_nil_iff.2 (by omega)
    by_cases hcol : opts.head? = some 0x3A
    · refine ⟨_, [], 0x3A, { st with cur := none, optind := st.optind + 2, optopt := charInt c }, rfl, ?_, ?_, ?_⟩
      · simp only [means_some h1, if_true, if_pos hlen, if_pos hcol]
      · exact .arg nofun (by simp) (by simp only [hnil]; exact .nil _)
      · simp [Event.result, hcol, hoa]
    · have g : ∀ ms, At argv opts { st with cur := none, optind := st.optind + 2, optopt := charInt c, msgs := ms } []
          (st.optind + 2) := fun ms => .arg nofun (by simp) (by simp only [hnil]; exact .nil _)
      cases ho : st.opterr with
      | false =>
        refine ⟨_, [], 0x3F, { st with cur := none, optind := st.optind + 2, optopt := charInt c }, rfl, ?_, g st.msgs, ?_⟩
        · simp only [means_some h1, if_true, if_pos hlen, if_neg hcol, ho, Bool.false_eq_true, if_false]
        · simp [Event.result, hcol, hoa]
      | true =>
        refine ⟨_, [], 0x3F, { st with cur := none, optind := st.optind + 2, optopt := charInt c, msgs := st.msgs ++ [.requires c] }, rfl, ?_, g _, ?_⟩
        · simp only [means_some h1, if_true, if_pos hlen, if_neg hcol, ho]
        · simp [Event.result, hcol, hoa]

theorem start_step {argv : List (List UInt8)} {opts : List UInt8} {st : St} {n : Nat} {es : List Event}
    (hi : st.optind ≠ 0) (hoa : st.optarg = none)
    (h : Args opts st.optind (argv.drop st.optind) es n) (hc : .illegal 0x3A ∉ es) :
    (es = [] ∧ ∃ st', st.start argv opts none = some (-1, st') ∧ st'.optind = n ∧ st'.optarg = none ∧ st'.optopt = st.optopt
        ∧ st'.cur = st.cur)
    ∨ ∃ e es' r st', es = e :: es' ∧ st.start argv opts none = some (r, st') ∧ At argv opts st' es' n
      ∧ (r, st'.optarg, st'.optopt) = e.result opts st.optopt := by
  unfold St.start
  generalize hd : argv.drop st.optind = args at h
  cases h with
  | nil =>
    have : argv[st.optind]? = none := List.getElem?_eq_none_iff.2 (List.drop_eq_nil_iff.1 hd)
    rw [this]
    exact .inl ⟨rfl, st, rfl, rfl, hoa, rfl, rfl⟩
  | operand _ rest ha =>
    rw [(drop_cons hd).1]
    refine .inl ⟨rfl, st, ?_, rfl, hoa, rfl, rfl⟩
    simp only
    rw [if_pos]
    rcases ha with rfl | ha
    · exact .inr rfl
    · exact .inl ha
  | stop _ rest =>
    rw [(drop_cons hd).1]
    refine .inl ⟨rfl, { st with optind := st.optind + 1 }, ?_, rfl, hoa, rfl, rfl⟩
    simp
  | @options _ _ c t rest _ hne h2 =>
    obtain ⟨g1, g2, g3⟩ := drop_cons hd
    have ht : textAt argv (st.optind, 1) = c :: t := by
      unfold textAt
      simp [List.getD, g1]
    obtain ⟨e, es', r, st', a1, a2, a3, a4⟩ := parse_step hi hoa (by rw [ht]; simp) (by rw [ht, g2]; exact h2) hc
    refine .inr ⟨e, es', r, st', a1, ?_, a3, a4⟩
    rw [g1]
    simp only
    rw [if_neg (by simp), if_neg (by simpa using hne)]
    exact a2

/-- One call. -/
theorem getopt_step {argv : List (List UInt8)} {opts : List UInt8} {st : St} {n : Nat} {es : List Event}
    (h : At argv opts st es n) (hc : .illegal 0x3A ∉ es) :
    (es = [] ∧ ∃ st', st.getopt argv opts = some (-1, st') ∧ st'.optind = n ∧ st'.optarg = none ∧ st'.optopt = st.optopt
        ∧ st'.cur = st.cur)
    ∨ ∃ e es' r st', es = e :: es' ∧ st.getopt argv opts = some (r, st') ∧ At argv opts st' es' n
      ∧ (r, st'.optarg, st'.optopt) = e.result opts st.optopt := by
  unfold St.getopt St.getoptLong
  cases h with
  | arg h1 h2 h3 =>
    simp only [if_neg h2]
    have := start_step (st := { st with optarg := none }) h2 rfl h3 hc
    cases hcur : st.cur with
    | none =>
      rw [hcur] at this
      simpa using this
    | some p =>
      simp only [h1 p hcur, if_true]
      rw [hcur] at this
      simpa using this
  | cluster h1 h2 h3 h4 =>
    simp only [if_neg h2, h1, if_neg h3]
    have := parse_step (st := { st with optarg := none }) h2 rfl h3 h4 hc
    rw [h1] at this
    exact .inr this

theorem calls_spec {argv : List (List UInt8)} {opts : List UInt8} {n : Nat} {es : List Event} {st : St}
    (h : At argv opts st es n) (hc : .illegal 0x3A ∉ es) :
    ∃ st', calls argv opts st (es.length + 1) = some (results opts st.optopt es, st') ∧ st'.optind = n := by
  induction es generalizing st with
  | nil =>
    rcases getopt_step h hc with ⟨_, st', e, h1, h2, h3, _⟩ | ⟨e, es', _, _, he, _⟩
    · refine ⟨st', ?_, h1⟩
      simp only [List.length_nil, calls, e, Option.bind_eq_bind, Option.bind_some, results, h2, h3]
    · cases he
  | cons e es ih =>
    rcases getopt_step h hc with ⟨he, _⟩ | ⟨e', es', r, st', he, e1, e2, e3⟩
    · cases he
    · cases he
      simp only [List.mem_cons, not_or] at hc
      obtain ⟨st2, e4, e5⟩ := ih e2 hc.2
      refine ⟨st2, ?_, e5⟩
      rw [List.length_cons, calls]
      simp only [e1, e4, Option.bind_eq_bind, Option.bind_some, results, e3]
      rw [← e3]

/-! ## C44, `getopt` -/

mutual
/-- Every argument vector can be parsed as POSIX says. -/
theorem args_total (opts : List UInt8) (i : Nat) (args : List (List UInt8)) : ∃ es n, Args opts i args es n :=
  match args with
  | [] => ⟨[], i, .nil i⟩
  | [] :: rest => ⟨[], i, .operand i rest (.inr (by simp))⟩
  | [b] :: rest =>
    if hb : b = 0x2D then ⟨[], i, .operand i rest (.inl (by rw [hb]))⟩
    else ⟨[], i, .operand i rest (.inr (by simpa using hb))⟩
  | (b :: c :: t) :: rest =>
    if hb : b = 0x2D then
      if hc : c :: t = [0x2D] then ⟨[], i + 1, by rw [hb, hc]; exact .stop i rest⟩
      else
        have ⟨es, n, h⟩ := cluster_total opts i 1 (c :: t) rest
        ⟨es, n, by rw [hb]; exact .options hc h⟩
    else ⟨[], i, .operand i rest (.inr (by simpa using hb))⟩
termination_by (args.length, 0)

theorem cluster_total (opts : List UInt8) (i off : Nat) (cur : List UInt8) (rest : List (List UInt8)) :
    ∃ es n, Cluster opts i off cur rest es n :=
  match cur with
  | [] =>
    have ⟨es, n, h⟩ := args_total opts (i + 1) rest
    ⟨es, n, .nil h⟩
  | c :: t =>
    have ⟨x, hx⟩ := means_total opts c
    match x, hx, t with
    | none, hx, t =>
      have ⟨es, n, h⟩ := cluster_total opts i (off + 1) t rest
      ⟨_, n, .illegal hx h⟩
    | some false, hx, t =>
      have ⟨es, n, h⟩ := cluster_total opts i (off + 1) t rest
      ⟨_, n, .flag hx h⟩
    | some true, hx, b :: t =>
      have ⟨es, n, h⟩ := args_total opts (i + 1) rest
      ⟨_, n, .inside hx h⟩
    | some true, hx, [] =>
      match rest with
      | [] => ⟨_, _, .missing hx⟩
      | a :: rest =>
        have ⟨es, n, h⟩ := args_total opts (i + 2) rest
        ⟨_, n, .next hx h⟩
termination_by (rest.length, cur.length + 1)
end

/-- C44: the calls of `getopt` report the options of the argument vector in order, each once, with the right argument, an
option that is not in the option string by `?` and a missing argument by `:` or `?`, with `optopt`; then -1, and `optind` is
the number of the first operand. (By `args_total` every argument vector has such events, and there are finitely many.)
Missing: argument vectors in which a colon stands for an option (`C44_colon_violation`). -/
theorem C44_getopt_partial {argv : List (List UInt8)} {opts : List UInt8} {n : Nat} {es : List Event} {st : St}
    (hst : st.optind = 1 ∧ st.cur = none ∨ st.optind = 0) (h : Args opts 1 (argv.drop 1) es n) (hc : .illegal 0x3A ∉ es) :
    ∃ st', calls argv opts st (es.length + 1) = some (results opts st.optopt es, st') ∧ st'.optind = n := by
  rcases hst with ⟨h1, h2⟩ | h1
  · exact calls_spec (.arg (by rw [h2]; exact nofun) (by rw [h1]; decide) (by rw [h1]; exact h)) hc
  · have e : st.getopt argv opts = ({ st with optind := 1, cur := none } : St).getopt argv opts := by
      unfold St.getopt St.getoptLong
      simp [h1]
    have e2 : ∀ k, calls argv opts st (k + 1) = calls argv opts { st with optind := 1, cur := none } (k + 1) := by
      intro k
      rw [calls, calls, e]
    rw [e2]
    exact calls_spec (st := { st with optind := 1, cur := none }) (.arg nofun (by simp) h) hc

/-- C44: with `opterr` 0 nothing is printed. -/
theorem C44_silent {argv : List (List UInt8)} {opts : List UInt8} {st st' : St} {r : Int32} (ho : st.opterr = false)
    (h : st.getopt argv opts = some (r, st')) : st'.msgs = st.msgs ∧ st'.opterr = false := by
  have hparse : ∀ (s s' : St) (r : Int32) (p : Ptr), s.opterr = false → s.parseArg argv opts p = some (r, s') →
      s'.msgs = s.msgs ∧ s'.opterr = false := by
    intro s s' r p hs e
    unfold St.parseArg at e
    split at e
    · cases e
    · rename_i t' _
      split at e
      · cases e
        unfold St.update
        simp only
        split <;> exact ⟨rfl, hs⟩
      · simp only [hs, Bool.false_eq_true, if_false] at e
        by_cases h1 : t' = []
        · rw [if_pos h1] at e
          by_cases h2 : s.optind + 2 > argv.length
          · rw [if_pos h2] at e
            by_cases h3 : opts.head? = some 0x3A
            · rw [if_pos h3] at e
              cases e
              exact ⟨rfl, rfl⟩
            · rw [if_neg h3] at e
              cases e
              exact ⟨rfl, rfl⟩
          · rw [if_neg h2] at e
            cases e
            exact ⟨rfl, rfl⟩
        · rw [if_neg h1] at e
          cases e
          exact ⟨rfl, rfl⟩
      · simp only [hs, Bool.false_eq_true, if_false] at e
        cases e
        unfold St.update
        simp only
        split <;> exact ⟨rfl, hs⟩
  have hstart : ∀ (s s' : St) (r : Int32), s.opterr = false → s.start argv opts none = some (r, s') →
      s'.msgs = s.msgs ∧ s'.opterr = false := by
    intro s s' r hs e
    unfold St.start at e
    split at e
    · cases e
      exact ⟨rfl, hs⟩
    · split at e
      · cases e
        exact ⟨rfl, hs⟩
      · split at e
        · cases e
          exact ⟨rfl, hs⟩
        · exact hparse _ _ _ _ hs e
  unfold St.getopt St.getoptLong at h
  simp only at h
  generalize hs : (if st.optind = 0 then { st with optarg := none, optind := 1, cur := none } else { st with optarg := none } : St)
    = s at h
  have h1 : s.msgs = st.msgs ∧ s.opterr = false := by
    rw [← hs]
    split <;> exact ⟨rfl, ho⟩
  rw [← h1.1]
  split at h
  · split at h
    · exact hstart _ _ _ h1.2 h
    · exact hparse _ _ _ _ h1.2 h
  · exact hstart _ _ _ h1.2 h

/-- The state at the start of a program. -/
def initial : St := ⟨1, none, none, 0, true, [], none, []⟩

/-- C44 fails for a colon: with the option string "a:" the argument "-:" is no option, but `getopt` returns `:`, which means
a missing argument. -/
theorem C44_colon_violation : Args [0x61, 0x3A] 1 [[0x2D, 0x3A]] [.illegal 0x3A] 2
    ∧ (calls [[0x70], [0x2D, 0x3A]] [0x61, 0x3A] initial 1).map (·.1) = some [(0x3A, none, 0)] :=
  ⟨.options (by decide) (.illegal (.inl rfl) (.nil (.nil 2))), by decide +kernel⟩

/-- C44 fails for the messages: an option string that begins with a colon does not suppress the message about an unknown
option. -/
theorem C44_message_violation : ∃ st, initial.getopt [[0x70], [0x2D, 0x78]] [0x3A, 0x61] = some (0x3F, st)
    ∧ st.msgs = [.illegal 0x78] :=
  ⟨{ initial with optind := 2, cur := some (1, 2), optopt := 0x78, msgs := [.illegal 0x78] }, by decide +kernel, rfl⟩

/-! ## `getopt_long` -/

theorem findLong_first {word : List UInt8} {l1 l2 : List LongOpt} {o : LongOpt} (i : Nat)
    (h1 : ∀ x ∈ l1, ¬ word <+: x.name) (h2 : word <+: o.name) : findLong word i (l1 ++ o :: l2) = some (i + l1.length, o) := by
  have hp : ∀ x : LongOpt, x.name.take word.length = word ↔ word <+: x.name := by
    intro x
    rw [List.prefix_iff_eq_take]
    exact eq_comm
  induction l1 generalizing i with
  | nil => rw [List.nil_append, findLong, if_pos ((hp o).2 h2)]; rfl
  | cons x l1 ih =>
    rw [List.cons_append, findLong, if_neg (fun h => h1 x (by simp) ((hp x).1 h)), ih (i + 1) (fun y hy => h1 y (by simp [hy]))]
    simp only [List.length_cons]
    congr 2
    omega

/-- What a long option does once `optind` and `optarg` are set: its value is returned, or stored and 0 returned. -/
def LongOpt.report (o : LongOpt) (st : St) : Int32 × St :=
  match o.flag with
  | none => (o.val, st)
  | some a => (0, { st with stores := st.stores ++ [(a, o.val)] })

theorem takeWhile_name {name : List UInt8} (h : 0x3D ∉ name) (t : List UInt8) :
    (name ++ 0x3D :: t).takeWhile (· != 0x3D) = name := by
  induction name with
  | nil => rfl
  | cons a l ih =>
    simp only [List.mem_cons, not_or] at h
    rw [List.cons_append, List.takeWhile_cons, if_pos (by simpa using Ne.symm h.1), ih h.2]

theorem takeWhile_whole {name : List UInt8} (h : 0x3D ∉ name) : name.takeWhile (· != 0x3D) = name := by
  induction name with
  | nil => rfl
  | cons a l ih =>
    simp only [List.mem_cons, not_or] at h
    rw [List.takeWhile_cons, if_pos (by simpa using Ne.symm h.1), ih h.2]

theorem long_start {argv : List (List UInt8)} {opts name tail : List UInt8} {l1 l2 : List LongOpt} {o : LongOpt} {st : St}
    (hcur : st.cur = none) (hi : st.optind ≠ 0) (harg : argv[st.optind]? = some (0x2D :: 0x2D :: (name ++ tail)))
    (hname : 0x3D ∉ name) (hne : name ≠ []) (htail : tail = [] ∨ ∃ t, tail = 0x3D :: t)
    (h1 : ∀ x ∈ l1, ¬ name <+: x.name) (h2 : name <+: o.name) :
    st.getoptLong argv opts (some (l1 ++ o :: l2))
      = some (({ st with optarg := none } : St).long argv opts (st.optind, 2) name.length l1.length o)
    ∧ (textAt argv (st.optind, 2))[name.length]? = tail.head? := by
  have hw : (name ++ tail).takeWhile (· != 0x3D) = name := by
    rcases htail with rfl | ⟨t, rfl⟩
    · rw [List.append_nil]
      exact takeWhile_whole hname
    · exact takeWhile_name hname t
  constructor
  · unfold St.getoptLong St.start
    simp only [if_neg hi, hcur, harg]
    have e : [0x2D, 0x2D] ≠ 0x2D :: 0x2D :: (name ++ tail) := by
      intro h
      simp only [List.cons.injEq, true_and] at h
      exact hne (List.append_eq_nil_iff.1 h.symm).1
    rw [if_neg (by simp), if_neg (Ne.symm e)]
    simp only [List.drop_succ_cons, List.drop_zero, hw, Option.bind_some, List.tail_cons, List.head?_cons, if_true,
      findLong_first 0 h1 h2, Nat.zero_add]
  · unfold textAt
    simp only [List.getD, harg, Option.getD_some, List.drop_succ_cons, List.drop_zero]
    rw [List.getElem?_append_right (Nat.le_refl _), Nat.sub_self, List.head?_eq_getElem?]

/-- C44, long options: the argument `--name` or `--name=value` selects the first option whose name begins with `name`, stores
its number, and takes the argument behind `=`, or for a required argument otherwise the next element of the vector, and
reports the option; a required argument that is missing is reported by `:` or `?`. Missing: an exact match behind an
option with a longer name, ambiguous names (`C44_long_exact_violation`), unknown names (`C44_long_unknown_violation`), and
a value for an option without argument (`C44_long_value_violation`). -/
theorem C44_long_partial {argv : List (List UInt8)} {opts name : List UInt8} {l1 l2 : List LongOpt} {o : LongOpt} {st : St}
    (hcur : st.cur = none) (hi : st.optind ≠ 0) (hname : 0x3D ∉ name) (hne : name ≠ [])
    (h1 : ∀ x ∈ l1, ¬ name <+: x.name) (h2 : name <+: o.name) :
    -- the name alone, for an option without required argument
    (argv[st.optind]? = some ([0x2D, 0x2D] ++ name) → o.hasArg = 0 ∨ o.hasArg = 2 →
      st.getoptLong argv opts (some (l1 ++ o :: l2))
        = some (o.report { st with optind := st.optind + 1, longindex := some l1.length, optarg := none }))
    -- the name with a value, for an option with argument
    ∧ (∀ v, argv[st.optind]? = some ([0x2D, 0x2D] ++ name ++ [0x3D] ++ v) → o.hasArg = 1 ∨ o.hasArg = 2 →
      st.getoptLong argv opts (some (l1 ++ o :: l2))
        = some (o.report { st with
            optind := st.optind + 1, longindex := some l1.length, optarg := some (st.optind, 2 + name.length + 1) })
      ∧ textAt argv (st.optind, 2 + name.length + 1) = v)
    -- the name alone, for an option with required argument
    ∧ (argv[st.optind]? = some ([0x2D, 0x2D] ++ name) → o.hasArg = 1 →
      (st.optind + 1 < argv.length →
        st.getoptLong argv opts (some (l1 ++ o :: l2))
          = some (o.report { st with
              optind := st.optind + 2, longindex := some l1.length, optarg := some (st.optind + 1, 0) }))
      ∧ (argv.length ≤ st.optind + 1 → ∃ r st', st.getoptLong argv opts (some (l1 ++ o :: l2)) = some (r, st')
          ∧ r = (if opts.head? = some 0x3A then 0x3A else 0x3F) ∧ st'.optarg = none ∧ st'.optind = st.optind + 1)) := by
  refine ⟨?_, ?_, ?_⟩
  · intro ha hh
    obtain ⟨e, e2⟩ := long_start (opts := opts) (tail := []) hcur hi (by simpa using ha) hname hne (.inl rfl) h1 h2 (l2 := l2)
    rw [e]
    unfold St.long LongOpt.report
    simp only [e2, List.head?_nil, reduceCtorEq, if_false]
    rcases hh with hh | hh
    · rw [hh, if_neg (by decide), if_neg (by decide)]
      rfl
    · rw [hh, if_pos rfl]
      rfl
  · intro v ha hh
    obtain ⟨e, e2⟩ := long_start (opts := opts) (tail := 0x3D :: v) hcur hi (by simpa using ha) hname hne (.inr ⟨v, rfl⟩) h1 h2 (l2 := l2)
    constructor
    · rw [e]
      unfold St.long LongOpt.report
      simp only [e2, List.head?_cons, if_true]
      rcases hh with hh | hh
      · rw [hh, if_neg (by decide)]
        rfl
      · rw [hh, if_pos rfl]
        rfl
    · unfold textAt
      simp only [List.getD, ha, Option.getD_some]
      have : 2 + name.length + 1 = ([0x2D, 0x2D] ++ name ++ [(0x3D : UInt8)]).length := by
        simp only [List.length_append, List.length_cons, List.length_nil]
      rw [this, List.drop_left]
  · intro ha hh
    obtain ⟨e, e2⟩ := long_start (opts := opts) (tail := []) hcur hi (by simpa using ha) hname hne (.inl rfl) h1 h2 (l2 := l2)
    rw [e]
    unfold St.long LongOpt.report
    simp only [e2, List.head?_nil, reduceCtorEq, if_false, hh]
    constructor
    · intro hlt
      rw [if_neg (by decide), if_pos trivial, if_pos hlt]
      rfl
    · intro hge
      rw [if_neg (by decide), if_pos trivial, if_neg (by omega)]
      by_cases hc : opts.head? = some 0x3A
      · rw [if_pos hc, if_pos hc]
        exact ⟨_, _, rfl, rfl, rfl, rfl⟩
      · rw [if_neg hc, if_neg hc]
        exact ⟨_, _, rfl, rfl, rfl, rfl⟩

/-- The long options "ab" (value 1) and "a" (value 2). -/
def exampleLong : List LongOpt := [⟨[0x61, 0x62], 0, none, 1⟩, ⟨[0x61], 0, none, 2⟩]

/-- C44 fails for an exact name behind a longer one: "--a" selects "ab". -/
theorem C44_long_exact_violation : (initial.getoptLong [[0x70], [0x2D, 0x2D, 0x61]] [] (some exampleLong)).map (·.1) = some 1 := by
  decide +kernel

/-- C44 fails for an unknown long option: "--xb" is reported, but its letters are then taken for short options. -/
theorem C44_long_unknown_violation : ∃ st1 st2 st3,
    initial.getoptLong [[0x70], [0x2D, 0x2D, 0x78, 0x62]] [0x62] (some exampleLong) = some (0x3F, st1)
      ∧ st1.getoptLong [[0x70], [0x2D, 0x2D, 0x78, 0x62]] [0x62] (some exampleLong) = some (0x3F, st2)
      ∧ st2.getoptLong [[0x70], [0x2D, 0x2D, 0x78, 0x62]] [0x62] (some exampleLong) = some (0x62, st3) :=
  ⟨{ initial with cur := some (1, 2), optopt := 0x2D, msgs := [.illegal 0x2D] },
    { initial with cur := some (1, 3), optopt := 0x78, msgs := [.illegal 0x2D, .illegal 0x78] },
    { initial with optind := 2, cur := some (1, 4), optopt := 0x78, msgs := [.illegal 0x2D, .illegal 0x78] },
    by decide +kernel, by decide +kernel, by decide +kernel⟩

/-- C44 fails for a value given to an option without argument: "--ab=x" is reported like "--ab". -/
theorem C44_long_value_violation :
    (initial.getoptLong [[0x70], [0x2D, 0x2D, 0x61, 0x62, 0x3D, 0x78]] [] (some exampleLong)).map (fun x => (x.1, x.2.optarg))
      = some (1, none) := by decide +kernel

/-! ## Examples -/

/-- "p -ab -o file -x -- -c" with the option string ":abo:": `-x` is unknown. -/
example : (calls [[0x70], [0x2D, 0x61, 0x62], [0x2D, 0x6F], [0x66], [0x2D, 0x78], [0x2D, 0x2D], [0x2D, 0x63]]
      [0x3A, 0x61, 0x62, 0x6F, 0x3A] initial 5).map (·.1)
    = some [(0x61, none, 0), (0x62, none, 0), (0x6F, some (3, 0), 0), (0x3F, none, 0x78), (-1, none, 0x78)] := by decide +kernel

example : Args [0x3A, 0x61, 0x62, 0x6F, 0x3A] 1
    [[0x2D, 0x61, 0x62], [0x2D, 0x6F], [0x66], [0x2D, 0x78], [0x2D, 0x2D], [0x2D, 0x63]]
    [.opt 0x61 none, .opt 0x62 none, .opt 0x6F (some (3, 0)), .illegal 0x78] 6 :=
  .options (by decide) <| .flag ⟨by decide, [0x3A], [0x62, 0x6F, 0x3A], rfl, by decide, by decide⟩ <|
    .flag ⟨by decide, [0x3A, 0x61], [0x6F, 0x3A], rfl, by decide, by decide⟩ <| .nil <|
    .options (by decide) <| .next ⟨by decide, [0x3A, 0x61, 0x62], [0x3A], rfl, by decide, by decide⟩ <|
    .options (by decide) <| .illegal (.inr (by decide)) <| .nil <| .stop _ _

end Verif.Getopt

import Verif.Rpc.TcpProps

/-!
# C73: calls over TCP

A client and a server with a connection between them (`lib/rpc/src/client.rs`, `lib/rpc/src/server.rs`).
-/

namespace NRK.Rpc.Tcp

/-- Where `Client::call` is (`client.rs` lines 27-50). -/
inductive ClPc where
  | idle
  | sending (out : List (List UInt8))
  | waiting
deriving DecidableEq, Repr

/-- Where the server is: in `handle` or `try_handle` (`server.rs` lines 73-101), which it calls again and
again. -/
inductive SvPc where
  | idle
  | receiving
  | replying
deriving DecidableEq, Repr

/-- A client, a server and the two directions of their connection.  `handled` is the history of the server:
what it received and what it replied. -/
structure Pair where
  req : Dir
  rsp : Dir
  cl : ClPc
  sv : SvPc
  handled : List (Got × Msg)

def Pair.init : Pair := ⟨Dir.init, Dir.init, .idle, .idle, []⟩

inductive Pair.Step : Pair → Pair → Prop
  /-- The network or a running call on the way to the server, or back. -/
  | req {p : Pair} {d : Dir} (a : Act) (ha : a.internal = true) (h : p.req.step a = some d) :
      Step p { p with req := d }
  | rsp {p : Pair} {d : Dir} (a : Act) (ha : a.internal = true) (h : p.rsp.step a = some d) :
      Step p { p with rsp := d }
  /-- `call` sets type and length in the header and sends (`client.rs` lines 33-44).  A payload of 65535 bytes
  or more fails a debug assertion. -/
  | call {p : Pair} {d : Dir} (m : Msg) (out : List (List UInt8)) (hc : p.cl = .idle)
      (hm : m.Proper ∧ m.payload.flatten.length < 65535) (h : p.req.step (.send m) = some d) :
      Step p { p with req := d, cl := .sending out }
  /-- `send_msg` has returned; receive the response (`client.rs` lines 46-47). -/
  | wait {p : Pair} {d : Dir} (out : List (List UInt8)) (hc : p.cl = .sending out) (hs : p.req.snd = [])
      (h : p.rsp.step (.recv out) = some d) : Step p { p with rsp := d, cl := .waiting }
  /-- `recv_msg` has returned, so does `call` (lines 47-49). -/
  | ret {p : Pair} (hc : p.cl = .waiting) (hr : p.rsp.rcv = .idle) : Step p { p with cl := .idle }
  /-- The server calls `recv_msg` or `try_recv_msg` with its buffer (`server.rs` lines 112-130), in which
  anything may be. -/
  | serve {p : Pair} {d : Dir} (buf : List UInt8) (hb : buf.length = ENTRY) (hv : p.sv = .idle)
      (h : p.req.step (.recv [buf]) = some d) : Step p { p with req := d, sv := .receiving }
  | tryServe {p : Pair} {d : Dir} (buf : List UInt8) (hb : buf.length = ENTRY) (hv : p.sv = .idle)
      (h : p.req.step (.tryRecv [buf]) = some d) :
      Step p { p with req := d, sv := if d.rcv = .idle then .idle else .receiving }
  /-- The handler has run and the server replies (`server.rs` lines 76-78, 89-91, 133-136).  The handler is
  not modelled: it leaves any header and any data in the buffer; the reply is as long as the header says, at
  most as long as the buffer.  If the handler fails or there is none, there is no reply (C46). -/
  | reply {p : Pair} {d : Dir} (g : Got) (m : Msg) (hv : p.sv = .receiving) (hr : p.req.rcv = .idle)
      (hg : p.req.got.getLast? = some g) (hm : g.isMsg = true) (hp : m.Proper)
      (h : p.rsp.step (.send m) = some d) :
      Step p { p with rsp := d, sv := .replying, handled := p.handled ++ [(g, m)] }
  /-- The reply is sent. -/
  | replied {p : Pair} (hv : p.sv = .replying) (hs : p.rsp.snd = []) : Step p { p with sv := .idle }

inductive Pair.Run : Pair → Prop
  | init : Run Pair.init
  | step {p p' : Pair} (h : Run p) (hs : Step p p') : Run p'

/-- The server has handled what it has received, except for the request it is about to reply to. -/
structure Pair.Inv (p : Pair) : Prop where
  req : p.req.Run
  rsp : p.rsp.Run
  proper : ∀ m ∈ p.req.sent, m.Proper
  properR : ∀ m ∈ p.rsp.sent, m.Proper
  replies : p.handled.map Prod.snd = p.rsp.sent
  requests : ∃ l, p.req.got = p.handled.map Prod.fst ++ l ∧
    (p.sv = .receiving ∧ p.req.rcv ≠ .idle → l = []) ∧ (p.sv ≠ .receiving → l = [] ∧ p.req.rcv = .idle) ∧
    (p.sv = .receiving ∧ p.req.rcv = .idle → ∃ g, l = [g])

theorem send_step {d d' : Dir} {m : Msg} (h : d.step (.send m) = some d') :
    d'.sent = d.sent ++ [m] ∧ d'.got = d.got ∧ d'.rcv = d.rcv := by
  simp only [Dir.step] at h
  split at h
  · cases h; exact ⟨rfl, rfl, rfl⟩
  · cases h

theorem recv_step {d d' : Dir} {b : List (List UInt8)} (h : d.step (.recv b) = some d') :
    d'.sent = d.sent ∧ d'.got = d.got ∧ d.rcv = .idle ∧ d'.rcv ≠ .idle := by
  simp only [Dir.step] at h
  split at h
  · rename_i h0; cases h; exact ⟨rfl, rfl, h0, by simp⟩
  · cases h

theorem tryRecv_step {d d' : Dir} {b : List (List UInt8)} (h : d.step (.tryRecv b) = some d') :
    d'.sent = d.sent ∧ d'.got = d.got ∧ d.rcv = .idle := by
  simp only [Dir.step] at h
  split at h
  · rename_i h0
    split at h <;> cases h <;> exact ⟨rfl, rfl, h0⟩
  · cases h

/-- Without a running `recv_msg` nothing is received; one that returns has one result. -/
theorem internal_got {d d' : Dir} (a : Act) (ha : a.internal = true) (hs : d.step a = some d') :
    d'.sent = d.sent ∧ (d.rcv = .idle → d'.got = d.got ∧ d'.rcv = .idle) ∧
      (d'.got = d.got ∧ (d.rcv ≠ .idle → d'.rcv ≠ .idle) ∨
        ∃ g, d'.got = d.got ++ [g] ∧ d'.rcv = .idle) := by
  refine ⟨(step_work a ha hs).2, ?_, ?_⟩
  · intro h0
    cases a with
    | push n =>
      simp only [Dir.step] at hs
      split at hs
      · split at hs
        · cases hs; exact ⟨rfl, h0⟩
        · cases hs
      · cases hs
    | next =>
      simp only [Dir.step] at hs
      split at hs
      · cases hs; exact ⟨rfl, h0⟩
      · cases hs
    | poll n =>
      simp only [Dir.step] at hs
      split at hs
      · cases hs; exact ⟨rfl, h0⟩
      · cases hs
    | pull n => simp [Dir.step, h0] at hs
    | full => simp [Dir.step, h0] at hs
    | send m => cases ha
    | trySend m => cases ha
    | recv b => cases ha
    | tryRecv b => cases ha
  · rcases step_got a ha hs with h | ⟨g, hg⟩
    · exact Or.inl h
    · refine Or.inr ⟨g, hg, ?_⟩
      have hc : ∀ (e : Dir) h orig r, e.got = d.got → (e.continue h orig r).got = d.got ++ [g] →
          (e.continue h orig r).rcv = .idle := by
        intro e h orig r he hx
        cases r with
        | inl x =>
          have : (e.continue h orig (.inl x)).got = e.got := rfl
          rw [this, he] at hx
          have := congrArg List.length hx
          simp at this
        | inr b => rfl
      have hn : ∀ l : List Got, l = d.got → ¬ l = d.got ++ [g] := by
        intro l hl hx
        rw [hl] at hx
        have := congrArg List.length hx
        simp at this
      cases a with
      | push n =>
        simp only [Dir.step] at hs
        split at hs
        · split at hs
          · cases hs; exact absurd hg (hn _ rfl)
          · cases hs
        · cases hs
      | next =>
        simp only [Dir.step] at hs
        split at hs
        · cases hs; exact absurd hg (hn _ rfl)
        · cases hs
      | poll n =>
        simp only [Dir.step] at hs
        split at hs
        · cases hs; exact absurd hg (hn _ rfl)
        · cases hs
      | pull n =>
        simp only [Dir.step] at hs
        split at hs
        · split at hs
          · cases hs
          · split at hs
            · split at hs
              · cases hs
                unfold Dir.header at hg ⊢
                split
                · rfl
                · rename_i h1
                  rw [if_neg h1] at hg
                  split
                  · rfl
                  · rename_i h2
                    rw [if_neg h2] at hg
                    exact hc _ _ _ _ rfl hg
              · cases hs; exact absurd hg (hn _ rfl)
            · cases hs
          · split at hs
            · cases hs; exact absurd hg (hn _ rfl)
            · cases hs
        · cases hs
      | full =>
        simp only [Dir.step] at hs
        split at hs
        · split at hs
          · split at hs
            · cases hs; rfl
            · cases hs; exact hc _ _ _ _ rfl hg
          · cases hs
        · cases hs
      | send m => cases ha
      | trySend m => cases ha
      | recv b => cases ha
      | tryRecv b => cases ha

theorem Pair.Run.inv {p : Pair} (h : p.Run) : p.Inv := by
  induction h with
  | init =>
    exact ⟨.init, .init, fun _ h => absurd h (by simp [Pair.init, Dir.init]),
      fun _ h => absurd h (by simp [Pair.init, Dir.init]), rfl, [], rfl, fun _ => rfl, fun _ => ⟨rfl, rfl⟩,
      fun h => nomatch h.1⟩
  | @step p p' _ hs ih =>
    obtain ⟨l, hl, hl1, hl2, hl3⟩ := ih.requests
    cases hs with
    | @req d a ha h =>
      obtain ⟨h1, h2, h3⟩ := internal_got a ha h
      refine ⟨.step a ih.req h, ih.rsp, by rw [h1]; exact ih.proper, ih.properR, ih.replies, ?_⟩
      by_cases hi : p.req.rcv = .idle
      · obtain ⟨h4, h5⟩ := h2 hi
        exact ⟨l, by rw [h4]; exact hl, fun ⟨_, hx⟩ => absurd h5 hx,
          fun hx => ⟨(hl2 hx).1, h5⟩, fun ⟨hx, _⟩ => hl3 ⟨hx, hi⟩⟩
      · by_cases hv : p.sv = .receiving
        · have hnil := hl1 ⟨hv, hi⟩
          subst hnil
          rcases h3 with ⟨h4, h5⟩ | ⟨g, h4, h5⟩
          · exact ⟨[], by rw [h4]; exact hl, fun _ => rfl, fun hx => absurd hv hx,
              fun ⟨_, hx⟩ => absurd hx (h5 hi)⟩
          · exact ⟨[g], by rw [h4, hl]; simp, fun ⟨_, hx⟩ => absurd h5 hx, fun hx => absurd hv hx,
              fun _ => ⟨g, rfl⟩⟩
        · exact absurd (hl2 hv).2 hi
    | @rsp d a ha h =>
      obtain ⟨h1, _, _⟩ := internal_got a ha h
      exact ⟨ih.req, .step a ih.rsp h, ih.proper, by rw [h1]; exact ih.properR, by rw [h1]; exact ih.replies,
        l, hl, hl1, hl2, hl3⟩
    | @call d m out hc hm h =>
      obtain ⟨h1, h2, h3⟩ := send_step h
      refine ⟨.step _ ih.req h, ih.rsp, ?_, ih.properR, ih.replies, l, by rw [h2]; exact hl,
        by rw [h3]; exact hl1, by rw [h3]; exact hl2, by rw [h3]; exact hl3⟩
      intro m' hm'
      rw [h1, List.mem_append, List.mem_singleton] at hm'
      rcases hm' with hm' | rfl
      · exact ih.proper m' hm'
      · exact hm.1
    | @wait d out hc hs h =>
      obtain ⟨h1, h2, _, _⟩ := recv_step h
      exact ⟨ih.req, .step _ ih.rsp h, ih.proper, by rw [h1]; exact ih.properR, by rw [h1]; exact ih.replies,
        l, hl, hl1, hl2, hl3⟩
    | ret hc hr => exact ⟨ih.req, ih.rsp, ih.proper, ih.properR, ih.replies, l, hl, hl1, hl2, hl3⟩
    | @serve d buf hb hv h =>
      obtain ⟨h1, h2, _, h4⟩ := recv_step h
      refine ⟨.step _ ih.req h, ih.rsp, by rw [h1]; exact ih.proper, ih.properR, ih.replies, l,
        by rw [h2]; exact hl, fun _ => (hl2 (by rw [hv]; simp)).1, fun hx => absurd rfl hx,
        fun ⟨_, hx⟩ => absurd hx h4⟩
    | @tryServe d buf hb hv h =>
      obtain ⟨h1, h2, h3⟩ := tryRecv_step h
      have hnil := (hl2 (by rw [hv]; simp)).1
      refine ⟨.step _ ih.req h, ih.rsp, by rw [h1]; exact ih.proper, ih.properR, ih.replies, l,
        by rw [h2]; exact hl, fun _ => hnil, fun hx => ⟨hnil, ?_⟩, fun ⟨hx, hy⟩ => ?_⟩
      by_cases hi : d.rcv = .idle
      · exact hi
      · simp only [if_neg hi] at hx
        exact absurd rfl hx
      · simp only [if_pos hy] at hx
        cases hx
    | @reply d g m hv hr hg hm hp h =>
      obtain ⟨h1, h2, h3⟩ := send_step h
      obtain ⟨x, rfl⟩ := hl3 ⟨hv, hr⟩
      have hone : x = g := by
        rw [hl, List.getLast?_append] at hg
        simpa using hg
      subst hone
      refine ⟨ih.req, .step _ ih.rsp h, ih.proper, ?_, by simp [h1, ih.replies], [], by simp [hl], fun _ => rfl,
        fun _ => ⟨rfl, hr⟩, fun ⟨hx, _⟩ => nomatch hx⟩
      intro m' hm'
      rw [h1, List.mem_append, List.mem_singleton] at hm'
      rcases hm' with hm' | rfl
      · exact ih.properR m' hm'
      · exact hp
    | replied hv hs =>
      exact ⟨ih.req, ih.rsp, ih.proper, ih.properR, ih.replies, l, hl, fun ⟨hx, _⟩ => (by cases hx),
        fun _ => hl2 (by rw [hv]; simp), fun ⟨hx, _⟩ => nomatch hx⟩

/-- **C73** Calls are answered by their own answers: if no request and no reply was too long for the buffers,
then what the `k`-th call returned is what the server replied to a request that is the client's `k`-th,
header and payload unchanged. -/
theorem c73_call_partial (p : Pair) (hr : p.Run) (hq : ∀ g ∈ p.req.got, g.isMsg = true)
    (hs : ∀ g ∈ p.rsp.got, g.isMsg = true) (k : Nat) (g : Got) (hg : p.rsp.got[k]? = some g) :
    ∃ m rq m', p.req.sent[k]? = some m ∧ p.handled[k]? = some (rq, m') ∧ Delivers m rq ∧ Delivers m' g := by
  have hi := hr.inv
  have hall : ∀ (l : List Got), (∀ g ∈ l, g.isMsg = true) → ∀ n, n < l.length → ∀ j, j < n →
      ∃ g, l[j]? = some g ∧ g.isMsg = true := by
    intro l hl n hn j hj
    exact ⟨l[j], List.getElem?_eq_getElem (by omega), hl _ (List.getElem_mem _)⟩
  have hk := (List.getElem?_eq_some_iff.1 hg).1
  obtain ⟨m', hm', hd'⟩ := c73_delivered_partial p.rsp hi.rsp hi.properR k (hall _ hs k hk) g hg
  rw [← hi.replies, List.getElem?_map] at hm'
  cases hh : p.handled[k]? with
  | none => rw [hh] at hm'; cases hm'
  | some w =>
    obtain ⟨rq, mm⟩ := w
    rw [hh] at hm'
    simp only [Option.map_some, Option.some.injEq] at hm'
    subst hm'
    obtain ⟨l, hl, _⟩ := hi.requests
    have hkh := (List.getElem?_eq_some_iff.1 hh).1
    have hrq : p.req.got[k]? = some rq := by
      rw [hl, List.getElem?_append_left (by simpa using hkh), List.getElem?_map, hh]
      rfl
    have hk2 := (List.getElem?_eq_some_iff.1 hrq).1
    obtain ⟨m, hm, hd⟩ := c73_delivered_partial p.req hi.req hi.proper k (hall _ hq k hk2) rq hrq
    exact ⟨m, rq, mm, hm, rfl, hd, hd'⟩

/-! ## Sample -/

theorem Pair.Run.reqs {p : Pair} (h : p.Run) : ∀ (as : List Act) (d : Dir), (∀ a ∈ as, a.internal = true) →
    p.req.exec as = some d → Pair.Run { p with req := d } := by
  intro as
  induction as generalizing p with
  | nil => intro d _ he; cases he; exact h
  | cons a as ih =>
    intro d ha he
    unfold Dir.exec at he
    split at he
    · rename_i e hs
      exact ih (p := { p with req := e }) (.step h (.req a (ha a (by simp)) hs)) d
        (fun b hb => ha b (by simp [hb])) he
    · cases he

theorem Pair.Run.rsps {p : Pair} (h : p.Run) : ∀ (as : List Act) (d : Dir), (∀ a ∈ as, a.internal = true) →
    p.rsp.exec as = some d → Pair.Run { p with rsp := d } := by
  intro as
  induction as generalizing p with
  | nil => intro d _ he; cases he; exact h
  | cons a as ih =>
    intro d ha he
    unfold Dir.exec at he
    split at he
    · rename_i e hs
      exact ih (p := { p with rsp := e }) (.step h (.rsp a (ha a (by simp)) hs)) d
        (fun b hb => ha b (by simp [hb])) he
    · cases he

/-- The server's buffer. -/
def blank : List UInt8 := List.replicate ENTRY 0

/-- A state in which a call has been answered is reachable: the client asks with `m2` and gets `[3]`. -/
theorem c73_call_sample : ∃ p : Pair, p.Run ∧ p.cl = .idle ∧ p.req.sent = [m2] ∧
    p.rsp.got = [.msg ⟨0, 8, 1⟩ [[0]] [[3]]] ∧ (∀ g ∈ p.req.got, g.isMsg = true) := by
  have r0 : Pair.Run Pair.init := .init
  have r1 := Pair.Run.step r0 (.call (d := ⟨[[0, 8, 2, 0], [5, 6]], [], [], .idle, [m2], []⟩) m2 [[0]] rfl
    ⟨rfl, by decide⟩ rfl)
  have r2 := Pair.Run.reqs r1 [.push 4, .next, .push 2, .next, .poll 6]
    ⟨[], [], [0, 8, 2, 0, 5, 6], .idle, [m2], []⟩ (by decide) rfl
  have r3 := Pair.Run.step r2 (.wait (d := ⟨[], [], [], .hdr [] [[0]], [], []⟩) [[0]] rfl rfl rfl)
  have r4 := Pair.Run.step r3 (.serve (d := ⟨[], [], [0, 8, 2, 0, 5, 6], .hdr [] [blank], [m2], []⟩) blank
    (by simp [blank]) rfl rfl)
  have hlen : blank.length = 8192 := by unfold blank; rw [List.length_replicate, ENTRY_eq]
  have hh : Hdr.ofBytes [0, 8, 2, 0] = ⟨0, 8, 2⟩ := rfl
  have e1 : Dir.step ⟨[], [], [0, 8, 2, 0, 5, 6], .hdr [] [blank], [m2], []⟩ (.pull 4) =
      some ⟨[], [], [5, 6], .body ⟨0, 8, 2⟩ [blank] [] blank 0 2 true [] 0, [m2], []⟩ := by
    simp [Dir.step, HDR, Dir.header, hh, totalLen_eq, hlen, Dir.continue, nextBuf]
  have e2 : Dir.step ⟨[], [], [5, 6], .body ⟨0, 8, 2⟩ [blank] [] blank 0 2 true [] 0, [m2], []⟩ (.pull 2) =
      some ⟨[], [], [], .body ⟨0, 8, 2⟩ [blank] [] (Fs.Spec.overwrite blank 0 [5, 6]) 2 2 true [] 0, [m2], []⟩ := by
    simp [Dir.step]
  have e3 : Dir.step ⟨[], [], [], .body ⟨0, 8, 2⟩ [blank] [] (Fs.Spec.overwrite blank 0 [5, 6]) 2 2 true [] 0,
      [m2], []⟩ .full = some ⟨[], [], [], .idle, [m2],
        [.msg ⟨0, 8, 2⟩ [blank] [Fs.Spec.overwrite blank 0 [5, 6]]]⟩ := by
    simp [Dir.step, Dir.continue]
  have r5 := Pair.Run.step (Pair.Run.step (Pair.Run.step r4 (.req _ rfl e1)) (.req _ rfl e2)) (.req _ rfl e3)
  have r6 := Pair.Run.step r5 (.reply (d := ⟨[[0, 8, 1, 0], [3]], [], [], .hdr [] [[0]], [⟨⟨0, 8, 1⟩, [[3]]⟩], []⟩)
    (.msg ⟨0, 8, 2⟩ [blank] [Fs.Spec.overwrite blank 0 [5, 6]]) ⟨⟨0, 8, 1⟩, [[3]]⟩ rfl rfl rfl rfl rfl rfl)
  have r7 := Pair.Run.rsps r6 [.push 4, .next, .push 1, .next, .poll 5, .pull 4, .pull 1, .full]
    ⟨[], [], [], .idle, [⟨⟨0, 8, 1⟩, [[3]]⟩], [.msg ⟨0, 8, 1⟩ [[0]] [[3]]]⟩ (by decide) (by decide +kernel)
  have r8 := Pair.Run.step r7 (.ret rfl rfl)
  exact ⟨_, r8, rfl, rfl, rfl, fun g hg => by
    simp only [List.mem_cons, List.not_mem_nil, or_false] at hg
    subst hg; rfl⟩

end NRK.Rpc.Tcp

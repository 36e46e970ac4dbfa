import Verif.Rack.MapModel
import Verif.Rack.PageLemmas
import Verif.Fs.FileLemmas

/-!
# Helper lemmas for memory mapping on a rack client: the request for pages
-/

namespace NRK.Rack.Remote

open Rpc (Header Res received Carries ENTRY ENTRY_eq)
open Fs.Spec (overwrite)
open NRK.Mem (Frame MCache LARGE BASE LARGE_eq BASE_eq new_large)

/-! ## One call -/

section
variable {σ : Type} (c : Ctrl σ) (p : Params σ) (l : Link) (id : KernelRpc) (dataIn : List (List UInt8))
  (name : HandlerName) (h1 : l.slot1.length = ENTRY) (h2 : l.slot2.length = ENTRY)
  (hd : c.srv.data.length = ENTRY) (hl : lookup id.num = some name) (hn : dataIn.length ≤ 6)
  (hfit : 4 + dataIn.flatten.length ≤ ENTRY)
include h1 h2 hd hl hn hfit

theorem rpcBuf_step (size : Nat) : ∃ req : Header, req.msgType = id.num ∧
    req.msgLen.toNat = dataIn.flatten.length ∧
    c.rpcBuf p l id dataIn size =
      match c.world.run p name req (received c.srv.data dataIn.flatten) with
      | (some (h, d), w) =>
        match Rpc.Server.reply { c.srv with hdr := h, data := d } l.slot2 with
        | .ok (some m) =>
          match Rpc.recvMsg m.1 m.2 req [List.replicate size 0] with
          | .ok (_, [out]) => (.ok out, ⟨{ c.srv with hdr := h, data := d }, w⟩)
          | _ => (.panic, ⟨{ c.srv with hdr := h, data := d }, w⟩)
        | _ => (.panic, ⟨{ c.srv with hdr := h, data := d }, w⟩)
      | (none, w) => (.panic, ⟨{ c.srv with hdr := req, data := received c.srv.data dataIn.flatten }, w⟩) := by
  have hE := ENTRY_eq
  let req : Header := { l.hdr with msgType := id.num, msgLen := UInt16.ofNat dataIn.flatten.length }
  have hml : req.msgLen.toNat = dataIn.flatten.length := by
    show (UInt16.ofNat dataIn.flatten.length).toNat = _
    rw [UInt16.toNat_ofNat_of_lt' (by simp only [UInt16.size]; omega)]
  have hsend := Rpc.sendMsg_eq l.slot1 req dataIn h1 hn hfit
  have hcs : Rpc.clientSend l.slot1 l.hdr id.num dataIn = .ok (req, some (4 + dataIn.flatten.length,
      overwrite l.slot1 0 (req.bytes ++ dataIn.flatten))) := by
    unfold Rpc.clientSend
    simp only [Rpc.totalLen_eq]
    rw [if_neg (by omega)]
    rw [show Rpc.sendMsg l.slot1
      { l.hdr with msgType := id.num, msgLen := UInt16.ofNat dataIn.flatten.length } dataIn = _ from hsend]
  have hcar := Rpc.carries_of_send l.slot1 h1 _ _ _ hsend
  have hrec := Rpc.receive_eq c.srv _ req dataIn.flatten hcar (by omega)
  have hlk : lookup req.msgType = some name := hl
  refine ⟨req, rfl, hml, ?_⟩
  unfold Ctrl.rpcBuf
  simp only [hcs]
  unfold Ctrl.handle
  rw [hrec]
  simp only [hlk]
  generalize c.world.run p name req (received c.srv.data dataIn.flatten) = r
  obtain ⟨_ | ⟨h, d⟩, w⟩ := r
  · rfl
  · simp only
    generalize Rpc.Server.reply { c.srv with hdr := h, data := d } l.slot2 = q
    cases q with
    | ok x => cases x <;> rfl
    | err e => rfl
    | panic => rfl

/-- The handler panics. -/
theorem rpcBuf_panic (size : Nat) (w : World σ)
    (hrun : ∀ h : Header, c.world.run p name h (received c.srv.data dataIn.flatten) = (none, w)) :
    ∃ srv, srv.data.length = ENTRY ∧ c.rpcBuf p l id dataIn size = (.panic, ⟨srv, w⟩) := by
  obtain ⟨req, _, _, e⟩ := rpcBuf_step c p l id dataIn name h1 h2 hd hl hn hfit size
  rw [hrun] at e
  exact ⟨_, by show (received c.srv.data dataIn.flatten).length = ENTRY; rw [received_length _ _ (by omega), hd], e⟩

/-- The handler leaves a reply of `n` bytes. -/
theorem rpcBuf_eq (size n : Nat) (d : List UInt8) (w : World σ) (hdl : d.length = ENTRY) (hnE : n ≤ ENTRY)
    (hrun : ∀ h : Header, c.world.run p name h (received c.srv.data dataIn.flatten) =
      (some ({ h with msgLen := UInt16.ofNat n }, d), w)) :
    (n + 4 ≤ ENTRY → n ≤ size → ∃ srv, srv.data.length = ENTRY ∧
      c.rpcBuf p l id dataIn size = (.ok (d.take n ++ List.replicate (size - n) 0), ⟨srv, w⟩)) ∧
    (ENTRY < n + 4 → ∃ srv, srv.data.length = ENTRY ∧
      c.rpcBuf p l id dataIn size = (.panic, ⟨srv, w⟩)) := by
  have hE := ENTRY_eq
  obtain ⟨req, _, _, e⟩ := rpcBuf_step c p l id dataIn name h1 h2 hd hl hn hfit size
  rw [hrun] at e
  have hml : (UInt16.ofNat n).toNat = n := by
    rw [UInt16.toNat_ofNat_of_lt' (by simp only [UInt16.size]; omega)]
  simp only at e
  generalize hs : ({ c.srv with hdr := { req with msgLen := UInt16.ofNat n }, data := d } : Rpc.Server) = srv at e
  have hsd : srv.data = d := by rw [← hs]
  have hsm : srv.hdr.msgLen.toNat = n := by rw [← hs]; exact hml
  constructor
  · intro hle hsz
    obtain ⟨m, hm, hce⟩ := Rpc.reply_eq srv l.slot2 h2 (by rw [hsd, hdl]) (by rw [hsm]; exact hle)
    rw [hm] at e
    rw [hsm, hsd] at hce
    obtain ⟨k, value⟩ := m
    obtain ⟨c1, c2, c3⟩ := hce
    simp only at c1 c2 c3
    subst c1
    have hdt : (d.take n).length = n := by rw [List.length_take]; omega
    have hrm := Rpc.recvMsg_eq value srv.hdr req (d.take n) [List.replicate size 0] c3 c2 (by simp) (by simp; omega)
    have hsp : Rpc.spread (d.take n) [List.replicate size 0] = [d.take n ++ List.replicate (size - n) 0] := by
      have hl := Rpc.spread_lengths [List.replicate size (0 : UInt8)] (d.take n)
      have hf := Rpc.spread_flatten [List.replicate size (0 : UInt8)] (d.take n) (by simp; omega)
      generalize Rpc.spread (d.take n) [List.replicate size 0] = q at hl hf
      have hq : q.length = 1 := by simpa using congrArg List.length hl
      obtain ⟨x, rfl⟩ := List.length_eq_one_iff.mp hq
      simp only [List.flatten_cons, List.flatten_nil, List.append_nil, hdt, List.drop_replicate] at hf
      rw [hf]
    rw [hsp] at hrm
    refine ⟨srv, by rw [hsd, hdl], ?_⟩
    rw [e]
    simp only [hrm]
  · intro hgt
    refine ⟨srv, by rw [hsd, hdl], ?_⟩
    have hrep : srv.reply l.slot2 = .panic := by
      unfold Rpc.Server.reply
      rw [hsm, hsd, if_neg (by omega)]
      refine (Rpc.c19_send_panics_iff l.slot2 h2 srv.hdr [d.take n]).1.2 ?_
      simp only [List.length_singleton, List.flatten_cons, List.flatten_nil, List.append_nil, List.length_take]
      omega
    rw [e, hrep]

end

/-! ## The pages in a message -/

theorem encRegions_length (fs : List Frame) : (encRegions fs).length = 24 + fs.length * 16 := by
  unfold encRegions
  rw [encWords_length, List.length_append]
  have : (fs.flatMap fun f => [f.base, f.aff]).length = 2 * fs.length := by
    induction fs with
    | nil => rfl
    | cons f fs ih => rw [List.flatMap_cons, List.length_append, ih, List.length_cons]; simp; omega
  rw [this]
  simp
  omega

theorem encWords_append (a b : List Nat) : encWords (a ++ b) = encWords a ++ encWords b := by
  unfold encWords; rw [List.flatMap_append]

theorem pairs_flatMap (fs : List Frame) :
    pairs (fs.flatMap fun f => [f.base, f.aff]) = fs.map fun f => (f.base, f.aff) := by
  induction fs with
  | nil => rfl
  | cons f fs ih => rw [List.flatMap_cons, List.map_cons, ← ih]; rfl

theorem decRegions_enc (fs : List Frame) (hl : fs.length < 2 ^ 64)
    (hf : ∀ f ∈ fs, f.base < 2 ^ 64 ∧ f.aff < 2 ^ 64) (rest : List UInt8) :
    decRegions (encRegions fs ++ rest) = some (fs.map fun f => (f.base, f.aff), rest) := by
  unfold decRegions encRegions
  rw [encWords_append, List.append_assoc]
  have e1 := decWords_enc [0, 0, fs.length] (lt3 (by decide) (by decide) hl)
    (encWords (fs.flatMap fun f => [f.base, f.aff]) ++ rest)
  rw [show [0, 0, fs.length].length = 3 from rfl] at e1
  rw [e1]
  have hlen : (fs.flatMap fun f => [f.base, f.aff]).length = 2 * fs.length := by
    clear e1 hl hf
    induction fs with
    | nil => rfl
    | cons f fs ih => rw [List.flatMap_cons, List.length_append, ih, List.length_cons]; simp; omega
  have e2 := decWords_enc (fs.flatMap fun f => [f.base, f.aff]) (fun w hw => by
    obtain ⟨f, hm, hw⟩ := List.mem_flatMap.1 hw
    have := hf f hm
    simp only [List.mem_cons, List.not_mem_nil, or_false] at hw
    rcases hw with rfl | rfl
    · exact this.1
    · exact this.2) rest
  rw [hlen] at e2
  simp only [e2, Option.map_some, pairs_flatMap]

theorem regionFrames_eq (fs : List Frame) (h : ∀ f ∈ fs, f.size = LARGE ∧ f.base % LARGE = 0) :
    regionFrames (fs.map fun f => (f.base, f.aff)) = .ok fs := by
  induction fs with
  | nil => rfl
  | cons f fs ih =>
    obtain ⟨h1, h2⟩ := h f (by simp)
    simp only [List.map_cons, regionFrames, new_large h2, ih (fun g hg => h g (by simp [hg]))]
    rw [← h1]

theorem run_frames (o : Oracle) (w : World Resources) (h : Header) (d : List UInt8) :
    w.run o.params .getShmemFrames h d = handleGetShmemFrames o h d w := rfl

/-- A page a message can carry. -/
def Sendable (f : Frame) : Prop := f.size = LARGE ∧ f.base % LARGE = 0 ∧ f.base < 2 ^ 64 ∧ f.aff < 2 ^ 64

/-- What the controller does with a request of a process, or of the kernel of machine `me`. -/
def grants (o : Oracle) (me : Nat) (pid : Option Nat) (n : Nat) (w : World Resources) :
    Outcome (List Frame) × World Resources :=
  match pid with
  | some _ => takePages ((List.range n).map o.mids) w
  | none => affinityAlloc o me n w

theorem frameReq_length (me : Nat) (pid : Option Nat) (n : Nat) : (frameReq me pid n).length = 5 := by
  cases pid <;> rfl

theorem frameReq_lt (me : Nat) (pid : Option Nat) (n : Nat) (hm : me < 2 ^ 64) (hp : ∀ p, pid = some p → p < 2 ^ 64)
    (hn : n < 2 ^ 64) : ∀ w ∈ frameReq me pid n, w < 2 ^ 64 := by
  intro x hx
  cases pid with
  | some p =>
    rcases List.mem_cons.1 hx with rfl | hx
    · decide
    · exact lt4 (by decide) (by decide) (hp p rfl) hn x hx
  | none =>
    rcases List.mem_cons.1 hx with rfl | hx
    · decide
    · exact lt4 hm (by decide) (by decide) hn x hx

theorem takePages_no_err : ∀ (ms : List Nat) (w : World Resources) (e : KError), (takePages ms w).1 ≠ .err e := by
  intro ms
  induction ms with
  | nil => intro w e h; cases h
  | cons m ms ih =>
    intro w e h
    unfold takePages at h
    split at h
    · cases h
    · split at h
      · simp only at h
        split at h
        · split at h
          · cases h
          · exact ih _ _ h
        · cases h
      · cases h

theorem grants_err (o : Oracle) (me : Nat) (pid : Option Nat) (n : Nat) (w : World Resources) (e : KError)
    (h : (grants o me pid n w).1 = .err e) : e = .dcmNotEnoughMemory ∧ pid = none := by
  cases pid with
  | some p => exact absurd h (takePages_no_err _ _ _)
  | none =>
    unfold grants affinityAlloc at h
    simp only at h
    split at h
    · cases h
    · split at h
      · cases h; exact ⟨rfl, rfl⟩
      · exact absurd h (takePages_no_err _ _ _)

theorem handle_frames (o : Oracle) (w : World Resources) (data : List UInt8) (me : Nat) (pid : Option Nat) (n : Nat)
    (hm : me < 2 ^ 64) (hp : ∀ p, pid = some p → p < 2 ^ 64) (hn : n < 2 ^ 64) (h : Header) :
    handleGetShmemFrames o h (received data (encWords (frameReq me pid n))) w =
      match (grants o me pid n w).1 with
      | .ok fs => (replyRegions h (received data (encWords (frameReq me pid n))) n fs, (grants o me pid n w).2)
      | .err e => (constructRet h (received data (encWords (frameReq me pid n))) (.err e), (grants o me pid n w).2)
      | .panic => (none, (grants o me pid n w).2) := by
  unfold handleGetShmemFrames
  have hdw := decWords_enc (frameReq me pid n) (frameReq_lt me pid n hm hp hn)
    (data.drop (encWords (frameReq me pid n)).length)
  rw [frameReq_length] at hdw
  unfold received
  rw [hdw]
  cases pid <;> rfl

theorem decRes_err (e : KError) (he : e ∈ plainErrors) (rest : List UInt8) :
    decRes (encRes (.err e) ++ rest) = some (.err e, rest) := by
  obtain ⟨h1, h2, h3⟩ := errOf_words e he
  have := decWords_enc [(errWords e).1 + 1, (errWords e).2, 0] (lt3 h2 h3 (by decide)) rest
  simp only [decRes, encRes]
  rw [show decWords 3 _ = _ from this]
  simp only [h1, Option.map_some]

/-- A request for pages, as the client sees it. -/
theorem getFrames_eq (c : Ctrl Resources) (o : Oracle) (l : Link) (hc : Conn l c) (me : Nat) (pid : Option Nat) (n : Nat)
    (hm : me < 2 ^ 64) (hp : ∀ p, pid = some p → p < 2 ^ 64) (h0 : 0 < n) (hn : n < 2 ^ 64) :
    ((grants o me pid n c.world).1 = .panic → ∃ srv, srv.data.length = ENTRY ∧
      getShmemFrames c o l me pid n = (.panic, ⟨srv, (grants o me pid n c.world).2⟩)) ∧
    (∀ e, (grants o me pid n c.world).1 = .err e → ∃ srv, srv.data.length = ENTRY ∧
      getShmemFrames c o l me pid n = (.err e, ⟨srv, (grants o me pid n c.world).2⟩)) ∧
    (∀ fs, (grants o me pid n c.world).1 = .ok fs → fs.length = n → (∀ f ∈ fs, Sendable f) →
      ∃ srv, srv.data.length = ENTRY ∧ getShmemFrames c o l me pid n =
        (if n ≤ 508 then .ok fs else .panic, ⟨srv, (grants o me pid n c.world).2⟩)) := by
  have hE := ENTRY_eq
  have hflat : [encWords (frameReq me pid n)].flatten = encWords (frameReq me pid n) := by simp
  have hel5 : (encWords (frameReq me pid n)).length = 40 := by rw [encWords_length, frameReq_length]
  have hfl : [encWords (frameReq me pid n)].flatten.length = 40 := by rw [hflat, hel5]
  have hrl : (received c.srv.data (encWords (frameReq me pid n))).length = ENTRY := by
    rw [received_length _ _ (by rw [hel5, hc.srv, hE]; omega), hc.srv]
  have hpan : ∀ w', (∀ h : Header, handleGetShmemFrames o h (received c.srv.data (encWords (frameReq me pid n))) c.world =
      (none, w')) → ∃ srv, srv.data.length = ENTRY ∧ getShmemFrames c o l me pid n = (.panic, ⟨srv, w'⟩) := by
    intro w' hw'
    obtain ⟨srv, s1, e⟩ := rpcBuf_panic c o.params l .getShmemFrames [encWords (frameReq me pid n)] .getShmemFrames
      hc.slot1 hc.slot2 hc.srv (by decide) (by simp) (by rw [hfl]; omega) (RES_SIZE + n * 16 + 24) w' (by
        intro h
        rw [hflat, run_frames, hw'])
    refine ⟨srv, s1, ?_⟩
    unfold getShmemFrames
    rw [if_neg (by omega)]
    simp only [e]
  refine ⟨?_, ?_, ?_⟩
  · intro hpanic
    refine hpan _ fun h => ?_
    rw [handle_frames o c.world c.srv.data me pid n hm hp hn h, hpanic]
  · intro e he
    have hwe : e ∈ plainErrors := by rw [(grants_err o me pid n c.world e he).1]; decide
    have hresl : (encRes (.err e)).length = 24 := encRes_length _
    generalize hD : overwrite (received c.srv.data (encWords (frameReq me pid n))) 0 (encRes (.err e)) = D
    have hDl : D.length = ENTRY := by
      rw [← hD, Fs.overwrite_length _ _ _ (by rw [hrl, hresl, hE]; omega), hrl]
    have hDt : D.take 24 = encRes (.err e) := by
      rw [← hD, ← hresl]; exact Rpc.take_overwrite_zero _ _
    obtain ⟨g1, _⟩ := rpcBuf_eq c o.params l .getShmemFrames [encWords (frameReq me pid n)] .getShmemFrames hc.slot1 hc.slot2
      hc.srv (by decide) (by simp) (by rw [hfl]; omega) (RES_SIZE + n * 16 + 24) RES_SIZE D
      (grants o me pid n c.world).2 hDl (by rw [hE]; unfold RES_SIZE; omega) (by
        intro h
        rw [hflat, run_frames, handle_frames o c.world c.srv.data me pid n hm hp hn h, he]
        simp only [constructRet]
        rw [if_neg (by rw [hrl, hE]; decide), hD])
    obtain ⟨srv, s1, e1⟩ := g1 (by rw [hE]; decide) (by omega)
    refine ⟨srv, s1, ?_⟩
    rw [show D.take RES_SIZE = encRes (.err e) from hDt] at e1
    unfold getShmemFrames
    rw [if_neg (by omega)]
    simp only [e1, decRes_err e hwe]
  · intro fs hok hlen hf
    have hel : (encRegions fs).length = n * 16 + 24 := by rw [encRegions_length, hlen]; omega
    have hresl : (encRes (.ok (0, 0))).length = 24 := encRes_length _
    by_cases hbig : ENTRY < RES_SIZE + (n * 16 + 24)
    · rw [if_neg (by unfold RES_SIZE at hbig; omega)]
      refine hpan _ fun h => ?_
      rw [handle_frames o c.world c.srv.data me pid n hm hp hn h, hok]
      simp only [replyRegions]
      rw [if_pos (by rw [hrl]; exact hbig)]
    · have hbig : n * 16 + 48 ≤ 8192 := by unfold RES_SIZE at hbig; omega
      generalize hD : overwrite (overwrite (received c.srv.data (encWords (frameReq me pid n))) RES_SIZE (encRegions fs)) 0
        (encRes (.ok (0, 0))) = D
      have hol : (overwrite (received c.srv.data (encWords (frameReq me pid n))) RES_SIZE (encRegions fs)).length = ENTRY := by
        rw [Fs.overwrite_length _ _ _ (by rw [hel, hrl, hE]; unfold RES_SIZE; omega), hrl]
      have hDl : D.length = ENTRY := by
        rw [← hD, Fs.overwrite_length _ _ _ (by rw [hol, hresl, hE]; omega), hol]
      have hDt : D.take (RES_SIZE + (n * 16 + 24)) = encRes (.ok (0, 0)) ++ encRegions fs := by
        generalize received c.srv.data (encWords (frameReq me pid n)) = buf at *
        have a1 : (buf.take RES_SIZE).length = 24 := by
          rw [List.length_take, hrl, hE]; rfl
        have a2 : D = encRes (.ok (0, 0)) ++ (encRegions fs ++ buf.drop (RES_SIZE + (encRegions fs).length)) := by
          rw [← hD]
          show [] ++ encRes (.ok (0, 0)) ++ List.drop (0 + (encRes (.ok (0, 0))).length) _ = _
          rw [List.nil_append, hresl]
          refine congrArg _ ?_
          show List.drop (0 + 24) (List.take RES_SIZE buf ++ encRegions fs ++ _) = _
          rw [Nat.zero_add, List.append_assoc, ← a1, List.drop_left]
        rw [a2, ← List.append_assoc]
        have : RES_SIZE + (n * 16 + 24) = (encRes (.ok (0, 0)) ++ encRegions fs).length := by
          rw [List.length_append, hresl, hel]; rfl
        rw [this, List.take_left]
      obtain ⟨g1, g2⟩ := rpcBuf_eq c o.params l .getShmemFrames [encWords (frameReq me pid n)] .getShmemFrames hc.slot1 hc.slot2
        hc.srv (by decide) (by simp) (by rw [hfl]; omega) (RES_SIZE + n * 16 + 24) (RES_SIZE + (n * 16 + 24)) D
        (grants o me pid n c.world).2 hDl (by rw [hE]; unfold RES_SIZE; omega) (by
          intro h
          rw [hflat, run_frames, handle_frames o c.world c.srv.data me pid n hm hp hn h, hok]
          simp only [replyRegions]
          rw [if_neg (by rw [hrl, hE]; unfold RES_SIZE; omega), hD])
      by_cases h508 : n ≤ 508
      · obtain ⟨srv, s1, e⟩ := g1 (by rw [hE]; unfold RES_SIZE; omega) (by omega)
        refine ⟨srv, s1, ?_⟩
        rw [if_pos h508]
        rw [hDt, show RES_SIZE + n * 16 + 24 - (RES_SIZE + (n * 16 + 24)) = 0 from by omega, List.replicate_zero,
          List.append_nil] at e
        unfold getShmemFrames
        rw [if_neg (by omega)]
        have hdec : decRes (encRes (.ok (0, 0)) ++ encRegions fs) = some (.ok (0, 0), encRegions fs) := by
          have := decWords_enc [0, 0, 0] (lt3 (by decide) (by decide) (by decide)) (encRegions fs)
          rw [show [0, 0, 0].length = 3 from rfl] at this
          unfold decRes
          rw [show encRes (.ok (0, 0)) = encWords [0, 0, 0] from rfl, this]
          rfl
        have hreg := decRegions_enc fs (by omega) (fun f hm => ⟨(hf f hm).2.2.1, (hf f hm).2.2.2⟩) []
        rw [List.append_nil] at hreg
        simp only [e, hdec, hreg]
        rw [if_neg (by simp), if_neg (by rw [List.length_map]; omega),
          List.take_of_length_le (by rw [List.length_map]; omega),
          regionFrames_eq fs (fun f hm => ⟨(hf f hm).1, (hf f hm).2.1⟩)]
      · obtain ⟨srv, s1, e⟩ := g2 (by rw [hE]; unfold RES_SIZE; omega)
        refine ⟨srv, s1, ?_⟩
        rw [if_neg h508]
        unfold getShmemFrames
        rw [if_neg (by omega)]
        simp only [e]

end NRK.Rack.Remote

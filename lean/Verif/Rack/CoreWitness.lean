import Verif.Rack.CoreProps

/-!
# C64: what releasing a core does, on concrete racks
-/

namespace NRK.Rack.Remote

open Rpc (ENTRY ENTRY_eq)
open NRK.Proc (CoreInfo)

/-- After a reply with the values `a` and `b` the controller takes the lowest byte of `b` for the flag of the
next message if that is a release. -/
theorem leftover_after (c : Ctrl Resources) (a b : UInt64) (h : c.srv.data.take 24 = encRes (.ok (a, b))) :
    leftover c = decide (b.toNat % 256 ≠ 0) := by
  have h16 : c.srv.data[16]? = some (UInt8.ofNat b.toNat) := by
    have : (c.srv.data.take 24)[16]? = c.srv.data[16]? := by rw [List.getElem?_take]; rfl
    rw [← this, h]
    rfl
  unfold leftover
  rw [h16]
  simp only [Option.getD_some, ne_eq, decide_eq_decide]
  rw [← UInt8.toNat_inj, UInt8.toNat_ofNat']
  rfl

/-- **C64 is false of the code**: a process that asks for a core and releases it again gets another core in
exchange, as long as there is one.  The released thread is not given out again (`c64_distinct`). -/
theorem c64_release_gives_another_core {reg : Nat → List CpuThread} {hs : List CoreStep} {r : Cluster Resources}
    (h : CoreHist reg hs r) (k : Nat) (o : Oracle) (l : Link) (pid entry : Nat) (g : UInt64) (c : Ctrl Resources)
    (h1 : l.slot1.length = ENTRY) (h2 : l.slot2.length = ENTRY) (hp : pid < 2 ^ 64) (he : entry < 2 ^ 64)
    (hreq : requestCore ⟨r.srv k, r.world⟩ o l pid false entry = (.ok (g, 0), c))
    (o2 : Oracle) (l2 : Link) (h3 : l2.slot1.length = ENTRY) (h4 : l2.slot2.length = ENTRY)
    (hm : 1 ≤ o2.mid ∧ o2.mid ≤ 16) (ho : o2.oom = false)
    (hleft : taken o2.mid (hs ++ [⟨k, l, o, .request pid false entry, .ok (g, 0)⟩]) < (reg o2.mid).length) :
    ∃ g2 : UInt64, (releaseCore c o2 l2 pid g.toNat).1 = .ok (g2, 0) ∧ g2 ≠ g ∧
      (releaseCore c o2 l2 pid g.toNat).2.world.ext.node.sched g.toNat = none ∧
      (releaseCore c o2 l2 pid g.toNat).2.world.ext.node.sched g2.toNat = some ⟨pid, g.toNat⟩ := by
  have hi := h.inv
  obtain ⟨srv, e1, e2, e3⟩ := request_eq (⟨r.srv k, r.world⟩ : Ctrl Resources) o l ⟨h1, h2, hi.srv k⟩ pid entry
    false hp he
  rw [hreq] at e3
  injection e3 with e3 e4
  rw [← e3] at e2
  have hl : leftover c = false := by
    rw [leftover_after c g 0 (by rw [e4]; exact e2 (by exact (nomatch ·)))]
    rfl
  let s : CoreStep := ⟨k, l, o, .request pid false entry, .ok (g, 0)⟩
  have h' : CoreHist reg (hs ++ [s]) ⟨upd r.srv k c.srv, c.world⟩ :=
    CoreHist.call (s := s) h ⟨h1, h2, hp, he⟩ hreq (by exact (nomatch ·))
  have hown : owner (hs ++ [s]) g.toNat = some ⟨pid, entry⟩ := by
    rw [owner_append]
    exact upd_same _ _ _
  have hgl : g.toNat < 2 ^ 64 := g.toNat_lt
  have key := c64_release_is_request h' k o2 l2 h3 h4 pid g.toNat entry hp hgl hown
  have part := c64_release_partial h' k o2 l2 h3 h4 pid g.toNat hp hgl
  have hu : (⟨(upd r.srv k c.srv) k, c.world⟩ : Ctrl Resources) = c := by rw [upd_same]
  simp only [hu] at key part
  obtain ⟨k1, k2⟩ := (key.2 hm.1 hm.2 hleft).2.1 ho hl
  have k3 := part.2.2 entry hown (by rw [k1]; exact (nomatch ·))
  have hinv := h'.inv
  have hbound := hinv.table.le (mid := o2.mid) (by omega) hm.2
  have hn : (UInt64.ofNat (coreNumber o2.mid (taken o2.mid (hs ++ [s])))).toNat =
      coreNumber o2.mid (taken o2.mid (hs ++ [s])) := core_toNat hm.2 (by omega)
  have hlast : (releaseCore c o2 l2 pid g.toNat).2.world.ext.node.sched
      (UInt64.ofNat (coreNumber o2.mid (taken o2.mid (hs ++ [s])))).toNat = some ⟨pid, g.toNat⟩ := by
    rw [hn, k2, upd_same]
  refine ⟨_, k1, ?_, k3, hlast⟩
  intro e
  rw [e, k3] at hlast
  cases hlast

/-! ## A rack with one machine of two threads -/

def demoThreads : List CpuThread := [⟨0, 0⟩, ⟨1, 0⟩]

/-- The threads of the machines. -/
def demoReg (mid : Nat) : List CpuThread := if mid = 1 then demoThreads else []

/-- The controller after machine 1 registered. -/
def demoCtl : Controller :=
  match Controller.new.initClient 1 demoThreads with
  | .ok s => s
  | _ => Controller.new

theorem demoCtl_eq : Controller.new.initClient 1 demoThreads = .ok demoCtl := by
  have h : (match Controller.new.initClient 1 demoThreads with
    | .ok _ => true
    | _ => false) = true := by decide +kernel
  unfold demoCtl
  split at h
  · rename_i s hs
    rw [hs]
  · cases h

/-- The rack before the first call; process 1 is in the file system (`Fs.demo`). -/
def demoRack : Cluster Resources where
  srv := fun _ => Rpc.Server.new
  world := ⟨Fs.demo, fun _ => List.replicate 8192 0,
    ⟨Proc.Node.new, demoCtl, fun i => Mem.MCache.new 0 65536 (13 + i), fun _ => Proc.Frames.new⟩⟩

theorem demo_hist : CoreHist demoReg [] demoRack := by
  refine CoreHist.boot (h0 := [] ++ [.register 1 demoThreads]) (.register .nil demoCtl_eq) ?_ ?_ ?_ ?_ ?_
  · intro mid
    simp only [List.nil_append, registered]
    split <;> simp
  · intro mid
    simp only [List.nil_append, claimed]
  · intro mid
    simp only [List.nil_append, registered, demoReg]
    by_cases h : mid = 1
    · subst h; simp
    · have : ¬ (1 = mid) := fun e => h e.symm
      simp [h, this]
  · intro g; rfl
  · intro k; exact List.length_replicate ..

/-- The resource manager chooses machine 1, everything goes well. -/
def demoOracle : Oracle := ⟨1, fun _ => 1, true, false, 4, Fs.Env.good⟩

def freshOk : freshLink.slot1.length = ENTRY ∧ freshLink.slot2.length = ENTRY := by simp [freshLink]

/-- The first call: process 1 asks for a core. -/
def demoReq : CoreStep := ⟨0, freshLink, demoOracle, .request 1 false 0x1000, .ok (4294967296, 0)⟩

theorem demo_request : ∃ c, requestCore ⟨demoRack.srv 0, demoRack.world⟩ demoOracle freshLink 1 false 0x1000 =
    (.ok (4294967296, 0), c) := by
  have h := (c64_request demo_hist 0 demoOracle freshLink freshOk.1 freshOk.2 1 0x1000 (by decide) (by decide)
    false).2 (by decide) (by decide) (by decide)
  exact ⟨_, Prod.ext (h.2.2.1 rfl rfl).1 rfl⟩

/-- **C64 is false of the code**, a whole run: process 1 asks for a core of a machine with two threads and
gets the first; it releases it and gets the second; it releases that and the controller crashes. -/
theorem c64_release_run : ∃ r1 r2 : Cluster Resources, ∃ s2 : CoreStep,
    CoreHist demoReg [demoReq] r1 ∧ s2.call = .release 1 4294967296 ∧ s2.res = .ok (4294967297, 0) ∧
    CoreHist demoReg [demoReq, s2] r2 ∧
    (releaseCore ⟨r2.srv 0, r2.world⟩ demoOracle freshLink 1 4294967297).1 = .panic := by
  obtain ⟨c, hc⟩ := demo_request
  have h1 : CoreHist demoReg ([] ++ [demoReq]) ⟨upd demoRack.srv 0 c.srv, c.world⟩ :=
    CoreHist.call (s := demoReq) demo_hist ⟨freshOk.1, freshOk.2, by decide, by decide⟩ hc (by exact (nomatch ·))
  obtain ⟨g2, k1, k2, k3, k4⟩ := c64_release_gives_another_core demo_hist 0 demoOracle freshLink 1 0x1000
    4294967296 c freshOk.1 freshOk.2 (by decide) (by decide) hc demoOracle freshLink freshOk.1 freshOk.2
    ⟨by decide, by decide⟩ rfl (by decide)
  have hu : (⟨(upd demoRack.srv 0 c.srv) 0, c.world⟩ : Ctrl Resources) = c := by rw [upd_same]
  have hd := c64_release_is_request h1 0 demoOracle freshLink freshOk.1 freshOk.2 1 4294967296 0x1000
    (by decide) (by decide) (by rw [owner_append]; exact upd_same _ _ _)
  simp only [hu] at hd
  have hg : g2 = 4294967297 := by
    have hsrv := h1.inv
    obtain ⟨srv, e1, e2, e3⟩ := request_eq (⟨demoRack.srv 0, demoRack.world⟩ : Ctrl Resources) demoOracle freshLink
      ⟨freshOk.1, freshOk.2, demo_hist.inv.srv 0⟩ 1 0x1000 false (by decide) (by decide)
    rw [hc] at e3
    injection e3 with e3 e4
    rw [← e3] at e2
    have hl : leftover c = false := by
      rw [leftover_after c 4294967296 0 (by rw [e4]; exact e2 (by exact (nomatch ·)))]
      rfl
    have := ((hd.2 (by decide) (by decide) (by decide)).2.1 rfl hl).1
    rw [show (4294967296 : Nat) = (4294967296 : UInt64).toNat from rfl, k1] at this
    injection this with this
    exact (Prod.ext_iff.1 this).1
  subst hg
  let s2 : CoreStep := ⟨0, freshLink, demoOracle, .release 1 4294967296, .ok (4294967297, 0)⟩
  have h2 : CoreHist demoReg (([] ++ [demoReq]) ++ [s2])
      ⟨upd (upd demoRack.srv 0 c.srv) 0 (releaseCore c demoOracle freshLink 1 4294967296).2.srv,
        (releaseCore c demoOracle freshLink 1 4294967296).2.world⟩ := by
    refine CoreHist.call (s := s2) h1 ⟨freshOk.1, freshOk.2, by decide, by decide⟩ ?_ (by exact (nomatch ·))
    show releaseCore ⟨(upd demoRack.srv 0 c.srv) 0, c.world⟩ demoOracle freshLink 1 4294967296 = _
    rw [hu]
    exact Prod.ext k1 rfl
  refine ⟨_, _, s2, h1, rfl, rfl, h2, ?_⟩
  exact (c64_release_is_request h2 0 demoOracle freshLink freshOk.1 freshOk.2 1 4294967297 4294967296
    (by decide) (by decide) (by rw [owner_append]; exact upd_same _ _ _)).1 (by decide)

/-- **C64 is false of the code**: if the previous reply to the client had a second value whose lowest byte is
not 0, as that to a request for the size of a file has, the controller takes the releasing process for a new
one and crashes, because the process is known to the file system. -/
theorem c64_release_crashes {reg : Nat → List CpuThread} {hs : List CoreStep} {r : Cluster Resources}
    (h : CoreHist reg hs r) (k : Nat) (o : Oracle) (l : Link) (h1 : l.slot1.length = ENTRY)
    (h2 : l.slot2.length = ENTRY) (pid gtid e : Nat) (hp : pid < 2 ^ 64) (hg : gtid < 2 ^ 64)
    (hown : owner hs gtid = some ⟨pid, e⟩) (hoom : o.oom = false) (a b : UInt64)
    (hlast : (r.srv k).data.take 24 = encRes (.ok (a, b))) (hb : b.toNat % 256 ≠ 0)
    (hknown : ∀ v, (r.world.node.call o.nlogs (.addProcess pid) o.env).1 ≠ .ok v) :
    (releaseCore ⟨r.srv k, r.world⟩ o l pid gtid).1 = .panic := by
  have key := c64_release_is_request h k o l h1 h2 pid gtid e hp hg hown
  by_cases hm : 1 ≤ o.mid ∧ o.mid ≤ 16 ∧ taken o.mid hs < (reg o.mid).length
  · refine (key.2 hm.1 hm.2.1 hm.2.2).2.2 hoom ?_ hknown
    rw [leftover_after ⟨r.srv k, r.world⟩ a b hlast]
    simpa using hb
  · exact key.1 hm

/-- The last two hypotheses of `c64_release_crashes` can be met: process 1 asks for the size of its file,
which has two bytes. -/
example : (Fs.demo.call 4 (.info 1 "a") Fs.Env.good).1.map values = .ok (2, 2) ∧
    (Fs.demo.call 4 (.addProcess 1) Fs.Env.good).1 = .err .fileDescForPidAlreadyAdded := by
  decide +kernel

/-- A rack where this happens: process 1 has a core and has just been told the size of its file. -/
theorem c64_crash_sample : ∃ r : Cluster Resources, CoreHist demoReg [demoReq] r ∧
    (releaseCore ⟨r.srv 0, r.world⟩ demoOracle freshLink 1 4294967296).1 = .panic := by
  obtain ⟨c, hc⟩ := demo_request
  have h1 : CoreHist demoReg ([] ++ [demoReq]) ⟨upd demoRack.srv 0 c.srv, c.world⟩ :=
    CoreHist.call (s := demoReq) demo_hist ⟨freshOk.1, freshOk.2, by decide, by decide⟩ hc (by exact (nomatch ·))
  let srv : Rpc.Server := { Rpc.Server.new with
    data := encRes (.ok (2, 2)) ++ List.replicate (ENTRY - 24) 0 }
  have hlen : srv.data.length = ENTRY := by
    show (encRes (.ok (2, 2)) ++ List.replicate (ENTRY - 24) 0).length = ENTRY
    rw [List.length_append, encRes_length, List.length_replicate, ENTRY_eq]
    rfl
  have h2 : CoreHist demoReg ([] ++ [demoReq]) ⟨fun _ => srv, { c.world with node := Fs.demo }⟩ :=
    CoreHist.other h1 rfl rfl (fun _ => hlen)
  refine ⟨_, h2, c64_release_crashes h2 0 demoOracle freshLink freshOk.1 freshOk.2 1 4294967296 0x1000
    (by decide) (by decide) (by rw [owner_append]; exact upd_same _ _ _) rfl 2 2 ?_ (by decide) ?_⟩
  · show (encRes (.ok (2, 2)) ++ List.replicate (ENTRY - 24) 0).take 24 = _
    exact List.take_left' (encRes_length _)
  · intro v
    have : (Fs.demo.call 4 (.addProcess 1) Fs.Env.good).1 = .err .fileDescForPidAlreadyAdded := by decide +kernel
    show (Fs.demo.call 4 (.addProcess 1) Fs.Env.good).1 ≠ _
    rw [this]
    exact (nomatch ·)

end NRK.Rack.Remote

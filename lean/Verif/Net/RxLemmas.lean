import Verif.Net.RxSpec
import Verif.Net.TxLemmas

/-! # C75: invariant of queue and device -/

namespace NRK.Net

/-- Generations of a ring of `n` of which `W` entries were written. -/
structure GenOK (g : Nat → Bool) (n W : Nat) : Prop where
  g1 : ∀ i, i < W → W ≤ i + n → g (i % n) = par n i
  g2 : ∀ i, W ≤ i → i < n → g i = false

theorem GenOK.next {g : Nat → Bool} {n W : Nat} (h : GenOK g n W) (hn : 0 < n) : g (W % n) = !par n W := by
  by_cases hlt : W < n
  · rw [Nat.mod_eq_of_lt hlt, h.g2 W (Nat.le_refl _) hlt, par_lt hlt]; rfl
  · obtain ⟨i, hi⟩ : ∃ i, W = i + n := ⟨W - n, by omega⟩
    have := h.g1 i (by omega) (by omega)
    rw [hi, Nat.add_mod_right, par_add hn, this]
    simp

theorem mod_ne' {n i j : Nat} (h : i ≠ j) (h1 : j < i + n) (h2 : i < j + n) : i % n ≠ j % n := by
  rcases Nat.lt_or_gt_of_ne h with h | h
  · exact mod_ne h h1
  · exact (mod_ne h h2).symm

theorem GenOK.put {g g' : Nat → Bool} {n W : Nat} (h : GenOK g n W)
    (h1 : g' (W % n) = par n W) (h2 : ∀ j, j ≠ W % n → g' j = g j) : GenOK g' n (W + 1) := by
  constructor
  · intro i hi hw
    by_cases he : i = W
    · rw [he]; exact h1
    · rw [h2 _ (mod_ne' he (by omega) (by omega))]
      exact h.g1 i (by omega) (by omega)
  · intro i hi hw
    have := mod_ne' (n := n) (i := i) (j := W) (by omega) (by omega) (by omega)
    rw [Nat.mod_eq_of_lt hw] at this
    rw [h2 _ this]
    exact h.g2 i (by omega) hw

/-- The chain of a running `enqueue`. -/
def RxWriter.chain : RxWriter → List Chain
  | .idle => []
  | .busy c _ _ _ => [c]

/-- The descriptor of a segment, without its generation: `i` is its number. -/
def rcell (i : Nat) (s : Seg) (d : RxDesc) : Prop := d.addr = s.addr ∧ d.len = s.len ∧ d.head = decide (i % 2 = 0)

/-- A chain of two buffers the length field can hold. -/
def Chain.Two (c : Chain) : Prop := ∃ a b, c.segs = [a, b] ∧ a.len < 2 ^ 14 ∧ b.len < 2 ^ 14

def RWrOk (q : RxQ) (E G W : Nat) : RxWriter → Prop
  | .idle => W = 2 * E ∧ 2 * E + 2 ≤ q.n + 2 * G
  | .busy c i rest m => c.Two ∧ (∃ dn, c.segs = dn ++ rest ∧ i = dn.length ∧ W = 2 * E + dn.length) ∧
      2 * E + 4 ≤ q.n + 2 * G ∧
      (m = true → ∃ s r, rest = s :: r ∧ rcell i s (q.ring (W % q.n)))

/-- Driver and command ring: `G` chains were given back, `W` descriptors written, the device is at `D`. -/
structure RCmd (q : RxQ) (w : RxWriter) (acc : List Chain) (G W D : Nat) : Prop where
  n4 : 4 ≤ q.n
  two : ∀ c ∈ acc, c.Two
  head : q.head = W % q.n
  gen : q.gen = par q.n W
  wr : RWrOk q acc.length G W w
  cont : ∀ i, D ≤ i → i < W → ∃ c s, (acc ++ w.chain)[i / 2]? = some c ∧ c.segs[i % 2]? = some s ∧
    rcell i s (q.ring (i % q.n))
  gens : GenOK (fun j => (q.ring j).gen) q.n W
  dw : D ≤ W
  gd : 2 * G ≤ D + 1

theorem RCmd.bound {q : RxQ} {w : RxWriter} {acc : List Chain} {G W D : Nat} (h : RCmd q w acc G W D) :
    W + 2 ≤ q.n + 2 * G ∧ W < D + q.n := by
  have h1 := h.wr
  have h2 := h.gd
  cases w with
  | idle => obtain ⟨a, b⟩ := h1; omega
  | busy c i rest m =>
    obtain ⟨⟨a, b, hc, _, _⟩, ⟨dn, hd, _, hW⟩, hr, _⟩ := h1
    have := congrArg List.length hd
    rw [hc] at this
    simp at this
    omega

/-- What the driver reads of a completion. -/
abbrev Key := Nat × Bool × Bool × Bool

def RxComp.key (c : RxComp) : Key := (c.len, c.sop, c.eop, c.err)

/-- The completions of a frame. -/
def Frame.keys (f : Frame) : List Key :=
  match f.frags with
  | [x] => [(x.length, true, true, f.err)]
  | [x, y] => [(x.length, true, false, false), (y.length, false, true, f.err)]
  | _ => []

def midKeys : Option Frag → List Key
  | none => []
  | some f => [(f.length, true, false, false)]

/-- Completions in the order in which the device makes them. -/
def allKeys (fs : List Frame) (m : Option Frag) : List Key := fs.flatMap Frame.keys ++ midKeys m

/-- The frame fits its chain and is what memory holds. -/
def Fits (mem : Nat → Frag) (c : Chain) (f : Frame) : Prop :=
  ∃ a b, c.segs = [a, b] ∧
    ((∃ x, f.frags = [x] ∧ 0 < x.length ∧ x.length ≤ a.len ∧ mem a.addr = x) ∨
     (∃ x y, f.frags = [x, y] ∧ 0 < x.length ∧ x.length ≤ a.len ∧ mem a.addr = x ∧ 0 < y.length ∧ y.length ≤ b.len ∧
      mem b.addr = y))

/-- The chains that are lent, with the one just being enqueued. -/
def outChains (acc : List Chain) (w : RxWriter) (G : Nat) : List Chain := acc.drop G ++ w.chain

def addrs (cs : List Chain) : List Nat := cs.flatMap (fun c => c.segs.map Seg.addr)

/-- Device and memory. -/
structure RDv (n : Nat) (dev : RxDev) (mem : Nat → Frag) (full : List Chain) (frames : List Frame) (G D : Nat) : Prop where
  next : dev.next = D % n
  gen : dev.gen = par n D
  pos : D = 2 * (frames.length + dev.mid.toList.length) ∨ D + 1 = 2 * (frames.length + dev.mid.toList.length)
  odd : ∀ f, dev.mid = some f → D + 1 = 2 * (frames.length + 1)
  gf : G ≤ frames.length
  nodup : (addrs (full.drop G)).Nodup
  fits : ∀ k f, G ≤ k → frames[k]? = some f → ∃ c, full[k]? = some c ∧ Fits mem c f
  mid : ∀ f, dev.mid = some f → ∃ c a b, full[frames.length]? = some c ∧ c.segs = [a, b] ∧ 0 < f.length ∧
    f.length ≤ a.len ∧ mem a.addr = f

/-- Completions: `R` were read by the driver, `C` written by the device. -/
structure RCp (q : RxQ) (dev : RxDev) (keys : List Key) (R C : Nat) : Prop where
  rc : R ≤ C
  ck : C + dev.pend.length = keys.length
  pend : dev.pend.map RxComp.key = keys.drop C
  tail : q.tail = R % q.n
  cgen : q.cgen = par q.n R
  dnext : dev.cnext = C % q.n
  dgen : dev.cgen = par q.n C
  win : C < R + q.n
  comp : ∀ k, R ≤ k → k < C → keys[k]? = some (q.comp (k % q.n)).key
  gens : GenOK (fun j => (q.comp j).gen) q.n C

def fragCount (fs : List Frame) : Nat := (fs.map (fun f => f.frags.length)).sum

structure RInv (s : RxSt) : Prop where
  ex : ∃ W D C, RCmd s.q s.w s.accepted s.got.length W D ∧
    RDv s.q.n s.dev s.mem (s.accepted ++ s.w.chain) s.frames s.got.length D ∧
    RCp s.q s.dev (allKeys s.frames s.dev.mid) (fragCount (s.frames.take s.got.length)) C
  fl : s.q.inflight.map Prod.snd = s.accepted.drop s.got.length
  got : ∀ (k : Nat) g, s.got[k]? = some g → ∃ c f, s.accepted[k]? = some c ∧ s.frames[k]? = some f ∧ Receives c f g
  shape : ∀ f ∈ s.frames, f.keys.length = f.frags.length ∧ f.frags.length ≤ 2

end NRK.Net

import Verif.Fs.FileModel

/-! # Helper lemmas about the buffer layout of files -/

namespace NRK.Fs

open Spec

section Overwrite
variable {α : Type}

theorem overwrite_nil (l : List α) (o : Nat) : overwrite l o [] = l := by
  simp [overwrite]

theorem overwrite_length (l : List α) (o : Nat) (d : List α) (h : o + d.length ≤ l.length) :
    (overwrite l o d).length = l.length := by
  simp [overwrite]; omega

theorem overwrite_append_left (a b : List α) (o : Nat) (d : List α)
    (h : o + d.length ≤ a.length) : overwrite (a ++ b) o d = overwrite a o d ++ b := by
  simp only [overwrite]
  rw [List.take_append_of_le_length (by omega), List.drop_append_of_le_length (by omega)]
  simp

theorem overwrite_append_right (a b : List α) (o : Nat) (d : List α) :
    overwrite (a ++ b) (a.length + o) d = a ++ overwrite b o d := by
  simp only [overwrite]
  rw [List.take_length_add_append, Nat.add_assoc, List.drop_length_add_append]
  simp

theorem overwrite_overwrite (l : List α) (o : Nat) (d e : List α)
    (h : o + (d.length + e.length) ≤ l.length) :
    overwrite (overwrite l o d) (o + d.length) e = overwrite l o (d ++ e) := by
  have h1 : (l.take o).length = o := by simp; omega
  have e1 : overwrite l o d = (l.take o ++ d) ++ l.drop (o + d.length) := by simp [overwrite]
  rw [e1]
  have h2 : o + d.length = (l.take o ++ d).length + 0 := by simp [h1]
  conv => lhs; arg 2; rw [h2]
  rw [overwrite_append_right]
  simp [overwrite, Nat.add_assoc]

end Overwrite

/-- Buffer layout reached by the code: every buffer but the last is full, and the last one is
not empty. -/
def Chunked : List (List UInt8) → Prop
  | [] => True
  | [b] => 0 < b.length ∧ b.length ≤ PAGE
  | b :: b' :: bs => b.length = PAGE ∧ Chunked (b' :: bs)

instance decChunked : (bufs : List (List UInt8)) → Decidable (Chunked bufs)
  | [] => isTrue trivial
  | [b] => inferInstanceAs (Decidable (0 < b.length ∧ b.length ≤ PAGE))
  | b :: b' :: bs =>
    have : Decidable (Chunked (b' :: bs)) := decChunked (b' :: bs)
    inferInstanceAs (Decidable (b.length = PAGE ∧ Chunked (b' :: bs)))

theorem Chunked.tail {b : List UInt8} {bs : List (List UInt8)} (h : Chunked (b :: bs)) :
    Chunked bs := by
  cases bs with
  | nil => trivial
  | cons => exact h.2

theorem chunked_concat (init : List (List UInt8)) (l : List UInt8) :
    Chunked (init ++ [l]) ↔
      (∀ b ∈ init, b.length = PAGE) ∧ 0 < l.length ∧ l.length ≤ PAGE := by
  induction init with
  | nil => simp [Chunked]
  | cons b bs ih =>
    cases bs with
    | nil => simp [Chunked]
    | cons b' bs' =>
      simp only [List.cons_append] at ih ⊢
      simp only [Chunked, ih]
      simp [and_assoc]

theorem flatten_full_length (bufs : List (List UInt8)) (h : ∀ b ∈ bufs, b.length = PAGE) :
    bufs.flatten.length = bufs.length * PAGE := by
  induction bufs with
  | nil => simp
  | cons b bs ih =>
    simp only [List.flatten_cons, List.length_append, List.length_cons]
    rw [ih (fun c hc => h c (List.mem_cons_of_mem _ hc)), h b (List.mem_cons_self ..)]
    pomega

/-- `get_size` is the length of the concatenated buffers. -/
theorem getSize_eq (f : File) (h : Chunked f.mcache) : f.getSize = f.mcache.flatten.length := by
  unfold File.getSize
  split
  · rename_i h0; simp [h0]
  · rename_i b h1; simp [h1]
  · rename_i h0 h1
    have hne : f.mcache ≠ [] := by intro hc; exact h0 hc
    obtain ⟨init, l, hl⟩ : ∃ init l, f.mcache = init ++ [l] :=
      ⟨f.mcache.dropLast, f.mcache.getLast hne, (List.dropLast_concat_getLast hne).symm⟩
    rw [hl] at h ⊢
    obtain ⟨hf, hp, hle⟩ := (chunked_concat init l).1 h
    have hlen := flatten_full_length init hf
    simp only [List.getLast?_append, List.getLast?_singleton, Option.some_or, Option.getD_some,
      List.length_append, List.length_singleton, Nat.add_sub_cancel, List.flatten_append,
      List.flatten_singleton]
    rw [if_neg (by pomega)]
    pomega

theorem chunked_flatten_set (bufs : List (List UInt8)) (k off : Nat) (b d : List UInt8)
    (h : Chunked bufs) (hk : bufs[k]? = some b) (hd : off + d.length ≤ b.length) :
    Chunked (bufs.set k (overwrite b off d)) ∧
    (bufs.set k (overwrite b off d)).flatten = overwrite bufs.flatten (k * PAGE + off) d := by
  induction bufs generalizing k with
  | nil => simp at hk
  | cons c cs ih =>
    cases k with
    | zero =>
      simp only [List.length_cons, Nat.zero_lt_succ, getElem?_pos, List.getElem_cons_zero,
        Option.some.injEq] at hk
      subst hk
      constructor
      · cases cs with
        | nil =>
          simp only [List.set_cons_zero, Chunked] at h ⊢
          rw [overwrite_length _ _ _ hd]; exact h
        | cons c' cs' =>
          simp only [List.set_cons_zero, Chunked] at h ⊢
          rw [overwrite_length _ _ _ hd]; exact h
      · simp only [List.set_cons_zero, List.flatten_cons, Nat.zero_mul, Nat.zero_add]
        rw [overwrite_append_left _ _ _ _ hd]
    | succ k =>
      simp only [List.getElem?_cons_succ] at hk
      obtain ⟨i1, i2⟩ := ih k h.tail hk
      cases cs with
      | nil => simp at hk
      | cons c' cs' =>
        obtain ⟨hc, hcs⟩ := h
        constructor
        · simp only [List.set_cons_succ]
          cases k with
          | zero => exact ⟨hc, by simpa using i1⟩
          | succ k => exact ⟨hc, by simpa using i1⟩
        · simp only [List.set_cons_succ, List.flatten_cons]
          simp only [List.flatten_cons] at i2
          rw [i2]
          have : (k + 1) * PAGE + off = c.length + (k * PAGE + off) := by
            rw [hc]; pomega
          rw [this, overwrite_append_right]

theorem chunked_get (bufs : List (List UInt8)) (k : Nat) (h : Chunked bufs)
    (hk : k * PAGE < bufs.flatten.length) :
    ∃ b, bufs[k]? = some b ∧ b.length = min PAGE (bufs.flatten.length - k * PAGE) := by
  induction bufs generalizing k with
  | nil => simp at hk
  | cons c cs ih =>
    cases cs with
    | nil =>
      obtain ⟨h1, h2⟩ := h
      simp only [List.flatten_cons, List.flatten_nil, List.append_nil] at hk ⊢
      have : k = 0 := by
        rcases Nat.eq_zero_or_pos k with h0 | h0
        · exact h0
        · pomega
      subst this
      exact ⟨c, by simp, by pomega⟩
    | cons c' cs' =>
      obtain ⟨hc, hcs⟩ := h
      cases k with
      | zero =>
        refine ⟨c, by simp, ?_⟩
        simp only [List.flatten_cons, List.length_append] at hk ⊢
        pomega
      | succ k =>
        have hk' : k * PAGE < (c' :: cs').flatten.length := by
          simp only [List.flatten_cons, List.length_append] at hk ⊢
          pomega
        obtain ⟨b, hb, hl⟩ := ih k hcs hk'
        refine ⟨b, by simpa using hb, ?_⟩
        rw [hl]
        rw [List.flatten_cons (l := c), List.length_append, hc]
        pomega

/-- The write loop, started inside the file, overwrites exactly the addressed bytes. -/
theorem writeLoop_spec (bufs : List (List UInt8)) (k off : Nat) (data : List UInt8)
    (h : Chunked bufs) (hoff : off < PAGE)
    (hin : k * PAGE + off + data.length ≤ bufs.flatten.length) :
    ∃ bufs', writeLoop bufs k off data = .ok bufs' ∧ Chunked bufs' ∧
      bufs'.flatten = overwrite bufs.flatten (k * PAGE + off) data := by
  induction hn : data.length using Nat.strongRecOn generalizing bufs k off data with
  | _ n ih =>
    unfold writeLoop
    by_cases h0 : data.length = 0
    · have : data = [] := List.length_eq_zero_iff.1 h0
      subst this
      exact ⟨bufs, by simp, h, (overwrite_nil _ _).symm⟩
    · rw [if_neg h0, dif_pos hoff]
      obtain ⟨b, hb, hbl⟩ := chunked_get bufs k h (by pomega)
      simp only [hb]
      generalize hm : (if data.length ≥ PAGE - off then PAGE - off else data.length) = m
      have hm1 : 0 < m := by split at hm <;> pomega
      have hm2 : m ≤ data.length := by split at hm <;> pomega
      have hm3 : off + m ≤ b.length := by split at hm <;> pomega
      rw [if_pos hm3]
      have htl : (data.take m).length = m := by simp; pomega
      obtain ⟨c1, c2⟩ := chunked_flatten_set bufs k off b (data.take m) h hb (by pomega)
      have hflen : (bufs.set k (overwrite b off (data.take m))).flatten.length
          = bufs.flatten.length := by
        rw [c2, overwrite_length _ _ _ (by pomega)]
      have hdl : (data.drop m).length = data.length - m := by simp
      by_cases hlast : data.length = m
      · have hdn : data.drop m = [] := List.length_eq_zero_iff.1 (by pomega)
        rw [hdn]
        refine ⟨_, by unfold writeLoop; simp, c1, ?_⟩
        rw [c2, List.take_of_length_le (by pomega)]
      · have hfull : m = PAGE - off := by split at hm <;> pomega
        have hrange : (k + 1) * PAGE + 0 + (data.drop m).length
            ≤ (bufs.set k (overwrite b off (data.take m))).flatten.length := by
          rw [hflen, hdl]; pomega
        obtain ⟨bufs', e1, e2, e3⟩ := ih (data.drop m).length (by pomega) _ (k + 1) 0
          (data.drop m) c1 (by pomega) hrange rfl
        refine ⟨bufs', e1, e2, ?_⟩
        rw [e3, c2]
        have hpos : (k + 1) * PAGE + 0 = k * PAGE + off + (data.take m).length := by
          rw [htl]; pomega
        rw [hpos, overwrite_overwrite _ _ _ _ (by rw [htl, hdl]; pomega),
          List.take_append_drop]

theorem resize_grow (b : List UInt8) (n : Nat) (h : b.length ≤ n) :
    resize b n = b ++ List.replicate (n - b.length) 0 := by
  simp [resize, List.take_of_length_le h]

theorem resize_length (b : List UInt8) (n : Nat) : (resize b n).length = n := by
  simp [resize]; pomega

theorem resize_replicate (m n : Nat) :
    resize (List.replicate m (0 : UInt8)) n = List.replicate n 0 := by
  simp only [resize, List.take_replicate, List.length_replicate, List.replicate_append_replicate]
  congr 1
  pomega

theorem ceil_spec (n : Nat) : ceil n PAGE * PAGE ≥ n ∧ ceil n PAGE * PAGE < n + PAGE := by
  unfold ceil
  simp only
  split <;> pomega

theorem flatten_replicate_zero (n m : Nat) :
    (List.replicate n (List.replicate m (0 : UInt8))).flatten = List.replicate (n * m) 0 := by
  induction n with
  | zero => simp
  | succ n ih =>
    rw [List.replicate_succ, List.flatten_cons, ih, List.replicate_append_replicate]
    congr 1
    rw [Nat.succ_mul]; pomega

theorem setLast_replicate (n : Nat) (b c : List UInt8) :
    setLast (List.replicate n b) c = List.replicate (n - 1) b ++ [c] := by
  unfold setLast
  congr 1
  simp

/-- Adding fresh buffers to a file made of full buffers zero-extends it. -/
theorem addBuffers_spec (oom : Oom) (f : File) (new remaining : Nat)
    (hfull : ∀ b ∈ f.mcache, b.length = PAGE) (hrem : 0 < remaining)
    (hnew : new = f.mcache.length * PAGE + remaining) :
    match File.increaseFileSize.addBuffers oom f new remaining with
    | (.ok (), g) => g.modes = f.modes ∧ Chunked g.mcache ∧
        g.mcache.flatten = zeroExtend f.mcache.flatten new
    | (.err e, g) => g = f ∧ e = .outOfMemory ∧ oom = .newBuffers
    | (.panic, _) => False := by
  have hch : Chunked f.mcache := by
    rcases List.eq_nil_or_concat f.mcache with h0 | ⟨init, l, h0⟩
    · rw [h0]; trivial
    · have h0' : f.mcache = init ++ [l] := by rw [h0, List.concat_eq_append]
      rw [h0', chunked_concat]
      have hl : l.length = PAGE := hfull l (by rw [h0']; simp)
      refine ⟨fun b hb => hfull b (by rw [h0']; simp [hb]), by pomega, by pomega⟩
  have hsz : f.getSize = f.mcache.length * PAGE := by
    rw [getSize_eq f hch, flatten_full_length _ hfull]
  have hfl := flatten_full_length _ hfull
  obtain ⟨c1, c2⟩ := ceil_spec remaining
  unfold File.increaseFileSize.addBuffers
  generalize hnb : ceil remaining PAGE = nb at c1 c2
  simp only
  have hnb0 : 0 < nb := by
    rcases Nat.eq_zero_or_pos nb with h0 | h0
    · subst h0; pomega
    · exact h0
  by_cases ho : oom = .newBuffers
  · simp [ho]
  · rw [if_neg ho]
    by_cases hmod : new % PAGE ≠ 0
    · rw [if_pos hmod, hsz]
      have hb : ¬ (nb = 0 ∨ f.mcache.length * PAGE + (nb - 1) * PAGE > new) := by
        intro h
        rcases h with h | h
        · pomega
        · have : (nb - 1) * PAGE = nb * PAGE - PAGE := by rw [Nat.sub_mul, Nat.one_mul]
          pomega
      rw [if_neg hb]
      refine ⟨rfl, ?_, ?_⟩
      · simp only
        rw [setLast_replicate, ← List.append_assoc, chunked_concat]
        refine ⟨?_, ?_, ?_⟩
        · intro b hb
          rcases List.mem_append.1 hb with hb | hb
          · exact hfull b hb
          · rw [(List.mem_replicate.1 hb).2]; simp
        · rw [resize_length]
          have : (nb - 1) * PAGE = nb * PAGE - PAGE := by rw [Nat.sub_mul, Nat.one_mul]
          pomega
        · rw [resize_length]
          have : (nb - 1) * PAGE = nb * PAGE - PAGE := by rw [Nat.sub_mul, Nat.one_mul]
          pomega
      · simp only
        rw [setLast_replicate, List.flatten_append, List.flatten_append,
          flatten_replicate_zero, List.flatten_singleton, resize_replicate]
        unfold zeroExtend
        rw [List.replicate_append_replicate, hfl]
        congr 2
        have : (nb - 1) * PAGE = nb * PAGE - PAGE := by rw [Nat.sub_mul, Nat.one_mul]
        pomega
    · rw [if_neg hmod]
      refine ⟨rfl, ?_, ?_⟩
      · simp only
        have : List.replicate nb (List.replicate PAGE (0 : UInt8))
            = List.replicate (nb - 1) (List.replicate PAGE (0 : UInt8))
              ++ [List.replicate PAGE (0 : UInt8)] := by
          rw [← List.replicate_succ']; congr 1; pomega
        rw [this, ← List.append_assoc, chunked_concat]
        refine ⟨?_, by rw [List.length_replicate]; pomega, by simp⟩
        intro b hb
        rcases List.mem_append.1 hb with hb | hb
        · exact hfull b hb
        · rw [(List.mem_replicate.1 hb).2]; simp
      · simp only
        rw [List.flatten_append, flatten_replicate_zero]
        unfold zeroExtend
        rw [hfl]
        congr 2
        pomega

/-- Growing a file zero-extends its contents; a failed allocation leaves the old bytes as a
prefix, possibly followed by zeros. -/
theorem increaseFileSize_spec (f : File) (new : Nat) (oom : Oom) (h : Chunked f.mcache)
    (hnew : f.mcache.flatten.length < new) :
    match f.increaseFileSize f.getSize new oom with
    | (.ok (), g) => g.modes = f.modes ∧ Chunked g.mcache ∧
        g.mcache.flatten = zeroExtend f.mcache.flatten new
    | (.err e, g) => g.modes = f.modes ∧ Chunked g.mcache ∧ e = .outOfMemory ∧ oom ≠ .none ∧
        ∃ n, n ≤ new ∧ g.mcache.flatten = zeroExtend f.mcache.flatten n
    | (.panic, _) => False := by
  rw [getSize_eq f h]
  unfold File.increaseFileSize
  rw [if_neg (by pomega)]
  rcases List.eq_nil_or_concat f.mcache with h0 | ⟨init, l, h0⟩
  · -- empty file
    rw [h0]
    simp only [List.getLast?_nil, List.flatten_nil, List.length_nil]
    rw [if_neg (by pomega), if_neg (by pomega)]
    have := addBuffers_spec oom f new (new - 0) (by simp [h0]) (by pomega) (by simp [h0])
    revert this
    split
    · rintro ⟨a1, a2, a3⟩
      exact ⟨a1, a2, by rw [a3, h0]; rfl⟩
    · rintro ⟨a1, a2, a3⟩
      subst a1
      exact ⟨rfl, h, a2, by simp [a3], 0, by omega, by simp [zeroExtend, h0]⟩
    · exact id
  · have h0' : f.mcache = init ++ [l] := by rw [h0, List.concat_eq_append]
    have hch := h
    rw [h0', chunked_concat] at hch
    obtain ⟨hf, hp, hle⟩ := hch
    have hlast : f.mcache.getLast? = some l := by rw [h0']; simp
    have hfl : f.mcache.flatten = init.flatten ++ l := by rw [h0']; simp
    have hil := flatten_full_length init hf
    have hlen : f.mcache.flatten.length = init.length * PAGE + l.length := by
      rw [hfl, List.length_append, hil]
    rw [hlen] at hnew ⊢
    rw [hlast]
    simp only
    rw [if_neg (by pomega)]
    by_cases hfit : new - (init.length * PAGE + l.length) ≤ PAGE - l.length
    · rw [if_pos hfit]
      by_cases ho : oom = .lastResize
      · rw [if_pos ho]
        exact ⟨rfl, h, rfl, by simp [ho], 0, by pomega, by simp [zeroExtend]⟩
      · rw [if_neg ho]
        refine ⟨rfl, ?_, ?_⟩
        · simp only [setLast]
          rw [h0', List.dropLast_concat, chunked_concat]
          refine ⟨hf, ?_, ?_⟩ <;> rw [resize_length] <;> pomega
        · simp only [setLast]
          rw [hfl]
          rw [h0', List.dropLast_concat, List.flatten_append, List.flatten_singleton,
            resize_grow _ _ (by pomega)]
          unfold zeroExtend
          rw [List.append_assoc]
          congr 3
          rw [List.length_append, hil]
          pomega
    · rw [if_neg hfit]
      by_cases ho : oom = .lastResize
      · rw [if_pos ho]
        exact ⟨rfl, h, rfl, by simp [ho], 0, by pomega, by simp [zeroExtend]⟩
      · rw [if_neg ho]
        have hset : setLast f.mcache (resize l PAGE) = init ++ [resize l PAGE] := by
          simp only [setLast]; rw [h0', List.dropLast_concat]
        have hfull : ∀ b ∈ init ++ [resize l PAGE], b.length = PAGE := by
          intro b hb
          rcases List.mem_append.1 hb with hb | hb
          · exact hf b hb
          · rw [List.mem_singleton.1 hb, resize_length]
        have hext : (init ++ [resize l PAGE]).flatten
            = zeroExtend f.mcache.flatten ((init.length + 1) * PAGE) := by
          rw [hfl, List.flatten_append, List.flatten_singleton, resize_grow _ _ hle]
          unfold zeroExtend
          rw [List.append_assoc]
          congr 3
          rw [List.length_append, hil]
          pomega
        have := addBuffers_spec oom { f with mcache := init ++ [resize l PAGE] } new
          (new - (init.length * PAGE + l.length) - (PAGE - l.length)) hfull (by pomega)
          (by simp only [List.length_append, List.length_singleton]; pomega)
        rw [hset]
        revert this
        split
        · rintro ⟨a1, a2, a3⟩
          refine ⟨a1, a2, ?_⟩
          rw [a3]
          simp only
          rw [hext]
          unfold zeroExtend
          rw [List.append_assoc, List.replicate_append_replicate]
          congr 2
          rw [List.length_append, List.length_replicate, hlen]
          pomega
        · rintro ⟨a1, a2, a3⟩
          subst a1
          refine ⟨rfl, ?_, a2, by simp [a3], (init.length + 1) * PAGE, by pomega, hext⟩
          simp only
          rw [chunked_concat]
          exact ⟨hf, by rw [resize_length]; pomega, by rw [resize_length]; pomega⟩
        · exact id

/-- Reading loop. -/
theorem readLoop_spec (bufs : List (List UInt8)) (fuel k off copied len : Nat)
    (dst pre rest : List UInt8) (h : Chunked bufs) (hoff : off < PAGE)
    (hc : copied ≤ len) (hdst : dst = pre ++ rest) (hpre : pre.length = copied)
    (hrest : len - copied ≤ rest.length)
    (hin : k * PAGE + off + (len - copied) ≤ bufs.flatten.length)
    (hfuel : copied < len → bufs.length < fuel + k) :
    readLoop bufs fuel k off copied len copied dst
      = .ok (len, pre ++ (bufs.flatten.drop (k * PAGE + off)).take (len - copied)
          ++ rest.drop (len - copied)) := by
  induction fuel generalizing k off copied dst pre rest with
  | zero =>
    unfold readLoop
    by_cases hlt : copied < len
    · exfalso
      obtain ⟨b, hb, _⟩ := chunked_get bufs k h (by pomega)
      have := (List.getElem?_eq_some_iff.1 hb).1
      have := hfuel hlt
      pomega
    · rw [if_neg hlt]
      have : len - copied = 0 := by pomega
      rw [this]
      have : copied = len := by pomega
      simp [this, hdst]
  | succ fuel ih =>
    unfold readLoop
    by_cases hlt : copied < len
    · rw [if_pos hlt]
      obtain ⟨b, hb, hbl⟩ := chunked_get bufs k h (by pomega)
      simp only [hb]
      rw [if_neg (by pomega)]
      generalize hm : (if len - copied ≥ b.length - off then b.length - off else len - copied) = m
      have hm1 : 0 < m := by split at hm <;> pomega
      have hm2 : m ≤ len - copied := by split at hm <;> pomega
      have hm3 : off + m ≤ b.length := by split at hm <;> pomega
      have hsl : ((b.drop off).take m).length = m := by simp; pomega
      unfold writeSubslice
      have hnl : ¬ dst.length < copied + ((b.drop off).take m).length := by
        rw [hsl, hdst, List.length_append]; pomega
      rw [if_neg hnl]
      simp only [Outcome.bind]
      -- the piece copied is a piece of the flat contents
      have hpiece : (b.drop off).take m = (bufs.flatten.drop (k * PAGE + off)).take m := by
        have hcf := chunked_get bufs k h (by pomega)
        clear ih hfuel
        induction bufs generalizing k with
        | nil => simp at hb
        | cons c cs ihb =>
          cases k with
          | zero =>
            simp at hb
            subst hb
            simp only [List.flatten_cons, Nat.zero_mul, Nat.zero_add]
            rw [List.drop_append_of_le_length (by pomega), List.take_append_of_le_length
              (by simp; pomega)]
          | succ k =>
            simp only [List.getElem?_cons_succ] at hb
            cases cs with
            | nil => simp at hb
            | cons c' cs' =>
              obtain ⟨hcl, hcs⟩ := h
              have hin' : k * PAGE + off + (len - copied) ≤ (c' :: cs').flatten.length := by
                rw [List.flatten_cons (l := c), List.length_append, hcl] at hin
                pomega
              obtain ⟨b', hb', hl'⟩ := chunked_get (c' :: cs') k hcs (by pomega)
              have : b' = b := by rw [hb] at hb'; exact (Option.some.inj hb').symm
              subst this
              rw [ihb hcs k hin' hb hl' ⟨b', hb', hl'⟩]
              rw [List.flatten_cons (l := c)]
              have : (k + 1) * PAGE + off = c.length + (k * PAGE + off) := by rw [hcl]; pomega
              rw [this, List.drop_length_add_append]
      have hdst' : overwrite dst copied ((b.drop off).take m)
          = (pre ++ (b.drop off).take m) ++ rest.drop m := by
        rw [hdst]
        have : copied = pre.length + 0 := by pomega
        rw [this, overwrite_append_right]
        simp only [overwrite, List.take_zero, List.nil_append, Nat.zero_add, hsl,
          List.append_assoc]
      by_cases hdone : copied + m = len
      · -- last iteration
        unfold readLoop
        rw [if_neg (by pomega)]
        have hm4 : m = len - copied := by pomega
        rw [hdst', hdone, hpiece, hm4]
      · have hfullb : m = b.length - off := by split at hm <;> pomega
        have hbp : b.length = PAGE := by pomega
        have hpos : (k + 1) * PAGE + 0 = k * PAGE + off + m := by pomega
        rw [ih (k + 1) 0 (copied + m) (overwrite dst copied ((b.drop off).take m))
          (pre ++ (b.drop off).take m) (rest.drop m) (by pomega) (by pomega) hdst'
          (by simp [hsl, hpre]) (by simp; pomega) (by pomega) (by intro hcl; have := hfuel hlt; pomega)]
        rw [hpos, hpiece]
        congr 2
        have hsum : len - copied = m + (len - (copied + m)) := by pomega
        rw [hsum, List.take_add, List.drop_drop, List.drop_drop]
        simp [List.append_assoc]
    · rw [if_neg hlt]
      have : len - copied = 0 := by pomega
      rw [this]
      have : copied = len := by pomega
      simp [this, hdst]

end NRK.Fs

import Verif.Model.SamSocket
/-!
# C163, C164: what goes through the socket of a SAM client
-/
namespace Emissary.SamSocket
variable {α : Type}

/-! ## C163: messages to the client -/

/-- The messages that are sent. -/
def sends : List Op → List Bytes
  | [] => []
  | .send m :: ops => m :: sends ops
  | _ :: ops => sends ops

/-- What is still to be written. -/
def Sock.rest (s : Sock) : Bytes := (match s.cur with | none => [] | some (off, m) => m.drop off) ++ s.queue.flatten

theorem rest_write : ∀ (n : Nat) (s : Sock) (ws : List Wr), (Sock.write n s ws).1.written ++ (Sock.write n s ws).1.rest = s.written ++ s.rest := by
  intro n
  induction n with
  | zero => intro s ws; rfl
  | succ n ih =>
    intro s ws
    unfold Sock.write
    split
    · rename_i hc
      split
      · rfl
      · rename_i m q hq
        rw [ih]
        simp only [Sock.rest, hc, hq, List.drop_zero, List.flatten_cons, List.nil_append]
    · rename_i off m hc
      split
      · rfl
      · rfl
      · rfl
      · rename_i k ws
        split
        · simp only [Sock.rest, hc]
        · dsimp only
          split
          · rename_i hk
            rw [ih]
            have e : (m.drop off).take (min k (m.drop off).length) = m.drop off := by
              rw [List.take_of_length_le]
              rw [List.length_drop] at hk ⊢
              omega
            simp only [Sock.rest, hc, e, List.append_assoc, List.nil_append]
          · rw [ih]
            simp only [Sock.rest, hc]
            rw [← List.drop_drop, List.append_assoc, ← List.append_assoc (List.take _ _), List.take_append_drop]

theorem scan_keeps (line : Bytes → Line α) (s : Sock) (n : Nat) : (s.scan line n).1.queue = s.queue ∧ (s.scan line n).1.cur = s.cur ∧ (s.scan line n).1.written = s.written := by
  unfold Sock.scan
  split
  · exact ⟨rfl, rfl, rfl⟩
  · split <;> exact ⟨rfl, rfl, rfl⟩

theorem read_keeps (line : Bytes → Line α) : ∀ (n : Nat) (s : Sock) (rs : List Rx),
    (Sock.read line n s rs).1.queue = s.queue ∧ (Sock.read line n s rs).1.cur = s.cur ∧ (Sock.read line n s rs).1.written = s.written := by
  intro n
  induction n with
  | zero => intro s rs; exact ⟨rfl, rfl, rfl⟩
  | succ n ih =>
    intro s rs
    cases rs with
    | nil => exact ⟨rfl, rfl, rfl⟩
    | cons r rs =>
      cases r with
      | fail => exact ⟨rfl, rfl, rfl⟩
      | eof => exact ⟨rfl, rfl, rfl⟩
      | seg b =>
        unfold Sock.read
        dsimp only
        split
        · exact ⟨rfl, rfl, rfl⟩
        · have := scan_keeps line (s.fill (b.take (s.buf.length - s.off))) (b.take (s.buf.length - s.off)).length
          cases hs : (s.fill (b.take (s.buf.length - s.off))).scan line (b.take (s.buf.length - s.off)).length with
          | mk q o =>
            rw [hs] at this
            cases o with
            | some o => exact this
            | none =>
              obtain ⟨h1, h2, h3⟩ := this
              obtain ⟨i1, i2, i3⟩ := ih q (if (b.take (s.buf.length - s.off)).length = b.length then rs else .seg (b.drop (b.take (s.buf.length - s.off)).length) :: rs)
              exact ⟨i1.trans h1, i2.trans h2, i3.trans h3⟩

theorem poll_written (line : Bytes → Line α) (s : Sock) (rs : List Rx) (ws : List Wr) : (s.poll line rs ws).1.written ++ (s.poll line rs ws).1.rest = s.written ++ s.rest := by
  have hk := read_keeps line (work rs) s rs
  unfold Sock.poll
  cases hr : Sock.read line (work rs) s rs with
  | mk q p =>
    rw [hr] at hk
    obtain ⟨rs', o⟩ := p
    obtain ⟨h1, h2, h3⟩ := hk
    dsimp only at h1 h2 h3
    have e : q.written ++ q.rest = s.written ++ s.rest := by unfold Sock.rest; rw [h1, h2, h3]
    cases o with
    | some o => exact e
    | none =>
      dsimp only
      have hw := rest_write (q.writeWork ws) q ws
      cases hx : Sock.write (q.writeWork ws) q ws with
      | mk a b =>
        rw [hx] at hw
        cases b <;> exact hw.trans e

theorem run_written (line : Bytes → Line α) (ops : List Op) : ∀ s : Sys α,
    ∃ l, ((s.run line ops).sock.written ++ (s.run line ops).sock.rest) ++ l = s.sock.written ++ s.sock.rest ++ (sends ops).flatten ∧ ((s.run line ops).live = true → l = []) := by
  induction ops with
  | nil => intro s; exact ⟨[], by simp [sends, Sys.run], fun _ => rfl⟩
  | cons o ops ih =>
    intro s
    show ∃ l, (((s.step line o).run line ops).sock.written ++ ((s.step line o).run line ops).sock.rest) ++ l = _ ∧ (((s.step line o).run line ops).live = true → l = [])
    have dead : ∀ (ops : List Op) (s : Sys α), s.live = false → s.run line ops = s := by
      intro ops
      induction ops with
      | nil => intro s _; rfl
      | cons o ops ih =>
        intro s hs
        have : s.step line o = s := by unfold Sys.step; rw [if_pos hs]
        show (s.step line o).run line ops = s
        rw [this]
        exact ih s hs
    by_cases hl : s.live = false
    · have : s.step line o = s := by unfold Sys.step; rw [if_pos hl]
      rw [this, dead ops s hl]
      exact ⟨(sends (o :: ops)).flatten, rfl, fun h => by rw [hl] at h; cases h⟩
    · obtain ⟨l, h1, h2⟩ := ih (s.step line o)
      cases o with
      | arrive r =>
        refine ⟨l, h1.trans ?_, h2⟩
        unfold Sys.step
        rw [if_neg hl]
        rfl
      | send m =>
        refine ⟨l, h1.trans ?_, h2⟩
        have : s.step line (.send m) = { s with sock := s.sock.send m } := by unfold Sys.step; rw [if_neg hl]
        rw [this]
        simp only [Sock.rest, Sock.send, sends, List.flatten_append, List.flatten_cons, List.flatten_nil, List.append_nil, List.append_assoc]
      | poll ws =>
        refine ⟨l, h1.trans ?_, h2⟩
        have e : (s.step line (.poll ws)).sock = (s.sock.poll line s.inbox ws).1 := by
          unfold Sys.step
          rw [if_neg hl]
          dsimp only
          cases s.sock.poll line s.inbox ws with
          | mk a b =>
            obtain ⟨c, d⟩ := b
            cases d <;> rfl
        rw [e, poll_written]
        rfl

/-- What the client gets is a beginning of the messages that were sent to it, one after the other: nothing is lost in between, repeated, mixed or out of order, however the stream cuts
the messages. -/
theorem C163_order (line : Bytes → Line α) (ops : List Op) : ((({ sock := Sock.new } : Sys α)).run line ops).sock.written <+: (sends ops).flatten := by
  obtain ⟨l, h, _⟩ := run_written line ops ({ sock := Sock.new } : Sys α)
  refine ⟨((({ sock := Sock.new } : Sys α)).run line ops).sock.rest ++ l, ?_⟩
  rw [← List.append_assoc, h]
  simp [Sock.new, Sock.rest]

/-- As long as the socket is open nothing is lost: what was not written is kept, and what is kept is what was not written. -/
theorem C163_kept (line : Bytes → Line α) (ops : List Op) (hl : ((({ sock := Sock.new } : Sys α)).run line ops).live = true) :
    ((({ sock := Sock.new } : Sys α)).run line ops).sock.written ++ ((({ sock := Sock.new } : Sys α)).run line ops).sock.rest = (sends ops).flatten := by
  obtain ⟨l, h, h0⟩ := run_written line ops ({ sock := Sock.new } : Sys α)
  rw [h0 hl, List.append_nil] at h
  rw [h]
  simp [Sock.new, Sock.rest]

/-- A stream that takes whatever it is given. -/
def greedy (n k : Nat) : List Wr := List.replicate n (.took k)

theorem flush (k : Nat) : ∀ (q : List Bytes) (s : Sock) (n m : Nat), s.queue = q → (∀ x ∈ q, x ≠ [] ∧ x.length ≤ k) →
    (∀ off x, s.cur = some (off, x) → off < x.length ∧ x.length ≤ k) → 2 * q.length + 2 ≤ n → q.length + 1 ≤ m →
    (Sock.write n s (greedy m k)).2 = true ∧ (Sock.write n s (greedy m k)).1.rest = [] := by
  intro q
  induction q with
  | nil =>
    intro s n m hq hx hc hn hm
    obtain ⟨n, rfl⟩ : ∃ i, n = i + 2 := ⟨n - 2, by simp at hn; omega⟩
    obtain ⟨m, rfl⟩ : ∃ i, m = i + 1 := ⟨m - 1, by simp at hm; omega⟩
    unfold Sock.write
    cases hcur : s.cur with
    | none =>
      dsimp only
      rw [hq]
      exact ⟨rfl, by simp [Sock.rest, hcur, hq]⟩
    | some p =>
      obtain ⟨off, x⟩ := p
      obtain ⟨h1, h2⟩ := hc off x hcur
      have hmin : min k (x.drop off).length = x.length - off := by rw [List.length_drop]; omega
      simp only [greedy, List.replicate_succ]
      rw [hmin, if_neg (by omega), if_pos (by omega)]
      unfold Sock.write
      simp only [hq]
      exact ⟨trivial, by simp [Sock.rest]⟩
  | cons y q ih =>
    intro s n m hq hx hc hn hm
    simp only [List.length_cons] at hn hm
    obtain ⟨n, rfl⟩ : ∃ i, n = i + 2 := ⟨n - 2, by omega⟩
    obtain ⟨m, rfl⟩ : ∃ i, m = i + 1 := ⟨m - 1, by omega⟩
    have hy := hx y List.mem_cons_self
    have hq' : ∀ x ∈ q, x ≠ [] ∧ x.length ≤ k := fun x h => hx x (List.mem_cons_of_mem _ h)
    have hlen : 0 < y.length := by cases y with | nil => exact absurd rfl hy.1 | cons => simp
    unfold Sock.write
    cases hcur : s.cur with
    | none =>
      dsimp only
      rw [hq]
      dsimp only
      refine ih _ (n + 1) (m + 1) rfl hq' ?_ (by omega) (by omega)
      intro off x h
      injection h with h
      injection h with h1 h2
      subst h1; subst h2
      exact ⟨hlen, hy.2⟩
    | some p =>
      obtain ⟨off, x⟩ := p
      obtain ⟨h1, h2⟩ := hc off x hcur
      have hmin : min k (x.drop off).length = x.length - off := by rw [List.length_drop]; omega
      simp only [greedy, List.replicate_succ]
      rw [hmin, if_neg (by omega), if_pos (by omega)]
      unfold Sock.write
      simp only [hq]
      refine ih _ n m rfl hq' ?_ (by omega) (by omega)
      intro off x h
      injection h with h
      injection h with h1 h2
      subst h1; subst h2
      exact ⟨hlen, hy.2⟩

/-- Messages that are kept are not empty and none is written to its end. -/
def Whole (k : Nat) (s : Sock) : Prop := (∀ x ∈ s.queue, x ≠ [] ∧ x.length ≤ k) ∧ ∀ off x, s.cur = some (off, x) → off < x.length ∧ x.length ≤ k

theorem whole_write {k : Nat} : ∀ (n : Nat) (s : Sock) (ws : List Wr), Whole k s → Whole k (Sock.write n s ws).1 := by
  intro n
  induction n with
  | zero => intro s ws h; exact h
  | succ n ih =>
    intro s ws h
    unfold Sock.write
    split
    · split
      · exact h
      · rename_i m q hq
        refine ih _ _ ⟨fun x hx => h.1 x (by rw [hq]; exact List.mem_cons_of_mem _ hx), ?_⟩
        intro off x e
        injection e with e
        injection e with e1 e2
        subst e1; subst e2
        have := h.1 m (by rw [hq]; exact List.mem_cons_self)
        refine ⟨?_, this.2⟩
        cases m with
        | nil => exact absurd rfl this.1
        | cons => simp
    · rename_i off m hc
      split
      · exact h
      · exact h
      · exact h
      · rename_i j ws
        split
        · refine ⟨h.1, ?_⟩
          intro o x e
          exact h.2 o x (hc.trans e)
        · dsimp only
          split
          · exact ih _ _ ⟨h.1, nofun⟩
          · rename_i hk
            refine ih _ _ ⟨h.1, ?_⟩
            intro o x e
            injection e with e
            injection e with e1 e2
            subst e1; subst e2
            have := h.2 off m hc
            rw [List.length_drop] at hk ⊢
            exact ⟨by omega, this.2⟩

theorem whole_run (line : Bytes → Line α) (k : Nat) (ops : List Op) : ∀ s : Sys α, (∀ m ∈ sends ops, m ≠ [] ∧ m.length ≤ k) → Whole k s.sock → Whole k (s.run line ops).sock := by
  induction ops with
  | nil => intro s _ h; exact h
  | cons o ops ih =>
    intro s hm h
    show Whole k ((s.step line o).run line ops).sock
    refine ih _ (fun m hx => hm m (by cases o <;> first | exact hx | exact List.mem_cons_of_mem _ hx)) ?_
    unfold Sys.step
    split
    · exact h
    · cases o with
      | arrive r => exact h
      | send m =>
        refine ⟨?_, h.2⟩
        intro x hx
        rcases List.mem_append.mp hx with hx | hx
        · exact h.1 x hx
        · rw [List.mem_singleton] at hx
          subst hx
          exact hm x List.mem_cons_self
      | poll ws =>
        have : Whole k (s.sock.poll line s.inbox ws).1 := by
          have hk := read_keeps line (work s.inbox) s.sock s.inbox
          unfold Sock.poll
          cases hr : Sock.read line (work s.inbox) s.sock s.inbox with
          | mk q p =>
            rw [hr] at hk
            obtain ⟨rs', o⟩ := p
            obtain ⟨h1, h2, h3⟩ := hk
            dsimp only at h1 h2 h3
            have hq : Whole k q := by unfold Whole; rw [h1, h2]; exact h
            cases o with
            | some o => exact hq
            | none =>
              dsimp only
              have hw := whole_write (q.writeWork ws) q ws hq
              cases hx : Sock.write (q.writeWork ws) q ws with
              | mk a b => rw [hx] at hw; cases b <;> exact hw
        dsimp only
        cases hp : s.sock.poll line s.inbox ws with
        | mk a b =>
          rw [hp] at this
          obtain ⟨c, d⟩ := b
          cases d <;> exact this

/-- When there is nothing to read and the stream takes what it is given, everything that was sent has been written after one poll. -/
theorem C163_flushed (line : Bytes → Line α) (ops : List Op) (k m : Nat) (hs : ∀ x ∈ sends ops, x ≠ [] ∧ x.length ≤ k) (hl : (({ sock := Sock.new } : Sys α).run line ops).live = true)
    (hi : (({ sock := Sock.new } : Sys α).run line ops).inbox = []) (hm : (({ sock := Sock.new } : Sys α).run line ops).sock.queue.length < m) :
    (({ sock := Sock.new } : Sys α).run line (ops ++ [.poll (greedy m k)])).sock.written = (sends ops).flatten := by
  have hk := C163_kept line ops hl
  have hw := whole_run line k ops ({ sock := Sock.new } : Sys α) hs ⟨fun x h => by simp [Sock.new] at h, nofun⟩
  unfold Sys.run at *
  rw [List.foldl_append]
  simp only [List.foldl_cons, List.foldl_nil]
  generalize List.foldl (Sys.step line) ({ sock := Sock.new } : Sys α) ops = s at *
  obtain ⟨f1, f2⟩ := flush k s.sock.queue s.sock (s.sock.writeWork (greedy m k)) m rfl hw.1 hw.2 (by unfold Sock.writeWork greedy; rw [List.length_replicate]; omega) hm
  have hr := rest_write (s.sock.writeWork (greedy m k)) s.sock (greedy m k)
  have e : s.sock.poll line s.inbox (greedy m k) = ((Sock.write (s.sock.writeWork (greedy m k)) s.sock (greedy m k)).1, [], .pending) := by
    unfold Sock.poll
    rw [hi]
    have : Sock.read line (work []) s.sock [] = (s.sock, [], none) := rfl
    rw [this]
    dsimp only
    cases hx : Sock.write (s.sock.writeWork (greedy m k)) s.sock (greedy m k) with
    | mk a b => rw [hx] at f1; dsimp only at f1; subst f1; rfl
  unfold Sys.step
  rw [hl]
  simp only [Bool.true_eq_false, if_false]
  rw [e]
  dsimp only
  rw [f2, List.append_nil, hk] at hr
  exact hr

/-! The bounds on the loops are large enough. -/

theorem write_bound : ∀ (n : Nat) (s : Sock) (ws : List Wr) (m : Nat), s.queue.length + ws.length + 1 ≤ n → n ≤ m → Sock.write m s ws = Sock.write n s ws := by
  intro n
  induction n with
  | zero => intro s ws m h; omega
  | succ n ih =>
    intro s ws m h hm
    obtain ⟨m, rfl⟩ : ∃ i, m = i + 1 := ⟨m - 1, by omega⟩
    unfold Sock.write
    split
    · split
      · rfl
      · rename_i x q hq
        rw [hq, List.length_cons] at h
        exact ih _ _ _ (by dsimp only; omega) (by omega)
    · split
      · rfl
      · rfl
      · rfl
      · split
        · rfl
        · dsimp only
          split
          · exact ih _ _ _ (by simp only [List.length_cons] at h; dsimp only; omega) (by omega)
          · exact ih _ _ _ (by simp only [List.length_cons] at h; dsimp only; omega) (by omega)

theorem work_pos (rs : List Rx) : 0 < work rs := by
  cases rs with
  | nil => decide
  | cons r rs => cases r <;> simp only [work] <;> omega

theorem read_bound (line : Bytes → Line α) : ∀ (n : Nat) (s : Sock) (rs : List Rx) (m : Nat), work rs ≤ n → n ≤ m → Sock.read line m s rs = Sock.read line n s rs := by
  intro n
  induction n with
  | zero => intro s rs m h; have := work_pos rs; omega
  | succ n ih =>
    intro s rs m h hm
    obtain ⟨m, rfl⟩ : ∃ i, m = i + 1 := ⟨m - 1, by omega⟩
    cases rs with
    | nil => rfl
    | cons r rs =>
      cases r with
      | fail => rfl
      | eof => rfl
      | seg b =>
        unfold Sock.read
        dsimp only
        split
        · rfl
        · rename_i hg
          cases hs : (s.fill (b.take (s.buf.length - s.off))).scan line (b.take (s.buf.length - s.off)).length with
          | mk q o =>
            cases o with
            | some o => rfl
            | none =>
              refine ih _ _ _ ?_ (by omega)
              simp only [work] at h
              split
              · omega
              · simp only [work, List.length_drop]
                have : 0 < (b.take (s.buf.length - s.off)).length := by
                  cases hb : b.take (s.buf.length - s.off) with
                  | nil => exact absurd hb hg
                  | cons => simp
                have : (b.take (s.buf.length - s.off)).length ≤ b.length := by rw [List.length_take]; omega
                omega

/-! ## C164: commands of the client -/

/-- A line without the newline that ends it. -/
def IsLine (l : Bytes) : Prop := 10 ∉ l ∧ l.length < size

/-- The socket has read nothing of the next line. -/
def Fresh (s : Sys α) : Prop := s.sock.buf.length = size ∧ s.sock.off = 0 ∧ s.live = true ∧ s.sock.queue = [] ∧ s.sock.cur = none

theorem newline_line (l rest : Bytes) (h : 10 ∉ l) : newline (l ++ 10 :: rest) = some l.length := by
  unfold newline
  rw [List.findIdx?_eq_some_iff_getElem]
  refine ⟨by simp, by simp, ?_⟩
  intro j hj
  have : (l ++ 10 :: rest)[j]'(by simp; omega) = l[j] := by rw [List.getElem_append_left hj]
  rw [this]
  simp only [decide_eq_true_eq, Bool.not_eq_true]
  intro e
  exact h (e ▸ List.getElem_mem hj)

theorem newline_none (l : Bytes) (h : 10 ∉ l) : newline l = none := by
  unfold newline
  rw [List.findIdx?_eq_none_iff]
  intro x hx
  simp only [decide_eq_false_iff_not]
  exact fun e => h (e ▸ hx)

theorem read_seg (line : Bytes → Line α) (n : Nat) (s : Sock) (b : Bytes) (rs : List Rx) : Sock.read line (n + 1) s (.seg b :: rs) =
    (if b.take (s.buf.length - s.off) = [] then (s, rs, some .closed)
    else match (s.fill (b.take (s.buf.length - s.off))).scan line (b.take (s.buf.length - s.off)).length with
      | (q, some o) => (q, if (b.take (s.buf.length - s.off)).length = b.length then rs else .seg (b.drop (b.take (s.buf.length - s.off)).length) :: rs, some o)
      | (q, none) => Sock.read line n q (if (b.take (s.buf.length - s.off)).length = b.length then rs else .seg (b.drop (b.take (s.buf.length - s.off)).length) :: rs)) := rfl

/-- What reading a segment with a whole line and something after it leads to when nothing of the line was read. -/
theorem read_line (line : Bytes → Line α) (s : Sock) (hb : s.buf.length = size) (ho : s.off = 0) (l rest : Bytes) (hl : 10 ∉ l) (hr : l.length + 1 + rest.length ≤ size) (rs : List Rx) (n : Nat) :
    Sock.read line (n + 1) s (.seg (l ++ 10 :: rest) :: rs) = match line l with
      | .notText => ({ s with buf := l ++ 10 :: rest ++ s.buf.drop (l.length + 1 + rest.length) }, rs, some .closed)
      | .cmd c => ({ s with buf := l ++ 10 :: rest ++ s.buf.drop (l.length + 1 + rest.length), off := 0 }, rs, some (.cmd c))
      | .bad => Sock.read line n { s with buf := l ++ 10 :: rest ++ s.buf.drop (l.length + 1 + rest.length), off := 0 } rs := by
  have hlen : (l ++ 10 :: rest).length = l.length + 1 + rest.length := by simp; omega
  have hg : (l ++ 10 :: rest).take (s.buf.length - s.off) = l ++ 10 :: rest := by
    rw [List.take_of_length_le]
    rw [hlen, hb, ho]
    omega
  rw [read_seg, hg, if_neg (by simp), if_pos rfl]
  have hf : s.fill (l ++ 10 :: rest) = { s with buf := l ++ 10 :: rest ++ s.buf.drop (l.length + 1 + rest.length) } := by
    unfold Sock.fill
    rw [ho, hlen]
    simp
  rw [hf]
  unfold Sock.scan
  have hn : newline (l ++ 10 :: rest ++ s.buf.drop (l.length + 1 + rest.length)) = some l.length := by
    rw [List.append_assoc, List.cons_append]
    exact newline_line l _ hl
  have ht : (l ++ 10 :: rest ++ s.buf.drop (l.length + 1 + rest.length)).take l.length = l := by
    rw [List.append_assoc, List.cons_append, List.take_left]
  dsimp only
  rw [hn]
  dsimp only
  rw [ht]
  cases line l <;> rfl

/-- Nothing to read and nothing to write. -/
theorem poll_idle (line : Bytes → Line α) (s : Sys α) (hq : s.sock.queue = []) (hc : s.sock.cur = none) (hi : s.inbox = []) (ws : List Wr) : s.step line (.poll ws) = s := by
  have e : s.sock.poll line s.inbox ws = (s.sock, [], .pending) := by
    unfold Sock.poll
    rw [hi]
    have : Sock.read line (work []) s.sock [] = (s.sock, [], none) := rfl
    rw [this]
    dsimp only
    have : Sock.write (s.sock.writeWork ws) s.sock ws = (s.sock, true) := by
      unfold Sock.writeWork Sock.write
      rw [hc, hq]
    rw [this]
  unfold Sys.step
  split
  · rfl
  · dsimp only
    rw [e]
    dsimp only
    rw [← hi]

theorem polls_idle (line : Bytes → Line α) (pw : List (List Wr)) (s : Sys α) (hq : s.sock.queue = []) (hc : s.sock.cur = none) (hi : s.inbox = []) : s.run line (pw.map .poll) = s := by
  induction pw with
  | nil => rfl
  | cons w pw ih =>
    show (s.step line (.poll w)).run line (pw.map .poll) = s
    rw [poll_idle line s hq hc hi]
    exact ih

/-- A segment arrives that begins with a whole line, and the socket is polled. -/
theorem one_line (line : Bytes → Line α) (s : Sys α) (hf : Fresh s) (hi : s.inbox = []) (l rest : Bytes) (hl : 10 ∉ l) (hr : l.length + 1 + rest.length ≤ size) (ws : List Wr) (hn : line l ≠ .notText) :
    s.run line [.arrive (.seg (l ++ 10 :: rest)), .poll ws]
      = { s with sock := { s.sock with buf := l ++ 10 :: rest ++ s.sock.buf.drop (l.length + 1 + rest.length) }, cmds := s.cmds ++ (match line l with | .cmd c => [c] | _ => []) } := by
  obtain ⟨hb, ho, hlive, hq, hc⟩ := hf
  have e1 : s.step line (.arrive (.seg (l ++ 10 :: rest))) = { s with inbox := [.seg (l ++ 10 :: rest)] } := by
    unfold Sys.step
    rw [hlive, hi]
    rfl
  show (s.step line _).step line (.poll ws) = _
  rw [e1]
  have hw : work [.seg (l ++ 10 :: rest)] = ((l ++ 10 :: rest).length + 1) + 1 := rfl
  have hr := read_line line s.sock hb ho l rest hl hr [] ((l ++ 10 :: rest).length + 1)
  unfold Sys.step
  simp only [hlive, Bool.true_eq_false, if_false]
  unfold Sock.poll
  rw [hw, hr]
  cases hx : line l with
  | notText => exact absurd hx hn
  | cmd c => simp only [← ho, ← hi]
  | bad =>
    dsimp only
    have : ∀ (q : Sock) (n : Nat), Sock.read line (n + 1) q [] = (q, [], none) := fun _ _ => rfl
    rw [this]
    dsimp only
    have : Sock.write (({ s.sock with buf := l ++ 10 :: rest ++ s.sock.buf.drop (l.length + 1 + rest.length), off := 0 } : Sock).writeWork ws)
        { s.sock with buf := l ++ 10 :: rest ++ s.sock.buf.drop (l.length + 1 + rest.length), off := 0 } ws
        = ({ s.sock with buf := l ++ 10 :: rest ++ s.sock.buf.drop (l.length + 1 + rest.length), off := 0 }, true) := by
      unfold Sock.writeWork Sock.write
      simp only [hc, hq]
    rw [this]
    simp only [List.append_nil, ← ho, ← hi]

theorem fresh_line {s : Sys α} (hf : Fresh s) (l rest : Bytes) (hr : l.length + 1 + rest.length ≤ size) (cs : List α) :
    Fresh ({ s with sock := { s.sock with buf := l ++ 10 :: rest ++ s.sock.buf.drop (l.length + 1 + rest.length) }, cmds := cs } : Sys α) := by
  obtain ⟨hb, ho, hlive, hq, hc⟩ := hf
  refine ⟨?_, ho, hlive, hq, hc⟩
  simp only [List.length_append, List.length_cons, List.length_drop, hb]
  omega

/-- The commands that lines stand for. -/
def commands (line : Bytes → Line α) (lines : List Bytes) : List α := lines.flatMap fun l => match line l with | .cmd c => [c] | _ => []

/-- When every line arrives whole in a segment of its own and the socket is polled in between, the commands are those of the lines, in order. -/
theorem C164_lines_partial (line : Bytes → Line α) (lines : List (Bytes × List Wr)) : ∀ (s : Sys α), Fresh s → s.inbox = [] → (∀ l ∈ lines, IsLine l.1 ∧ line l.1 ≠ .notText) →
    (s.run line (lines.flatMap fun l => [.arrive (.seg (l.1 ++ [10])), .poll l.2])).cmds = s.cmds ++ commands line (lines.map (·.1)) := by
  induction lines with
  | nil => intro s _ _ _; simp [commands, Sys.run]
  | cons l lines ih =>
    intro s hf hi hl
    obtain ⟨h1, h2⟩ := hl l List.mem_cons_self
    have hlen : l.1.length + 1 + ([] : Bytes).length ≤ size := by have := h1.2; simp; omega
    have e := one_line line s hf hi l.1 [] h1.1 hlen l.2 h2
    show ((s.run line [.arrive (.seg (l.1 ++ [10])), .poll l.2]).run line (lines.flatMap fun l => [.arrive (.seg (l.1 ++ [10])), .poll l.2])).cmds = _
    rw [e, ih _ (fresh_line hf l.1 [] hlen _) hi fun x hx => hl x (List.mem_cons_of_mem _ hx)]
    simp [commands, List.flatMap_cons]

/-- The bytes of a list of segments. -/
def bytes : List Rx → Bytes
  | [] => []
  | .seg b :: rs => b ++ bytes rs
  | _ :: rs => bytes rs

/-- All that has arrived are segments with something in them. -/
def AllSegs (rs : List Rx) : Prop := ∀ r ∈ rs, ∃ b, r = .seg b ∧ b ≠ []

/-- What arrives. -/
def arrivals : List Op → List Rx
  | [] => []
  | .arrive r :: ops => r :: arrivals ops
  | _ :: ops => arrivals ops

theorem bytes_append (a b : List Rx) : bytes (a ++ b) = bytes a ++ bytes b := by
  induction a with
  | nil => rfl
  | cons r a ih => cases r <;> simp [bytes, ih]

theorem bytes_nil {rs : List Rx} (h : AllSegs rs) (hb : bytes rs = []) : rs = [] := by
  cases rs with
  | nil => rfl
  | cons r rs =>
    obtain ⟨b, rfl, hne⟩ := h r List.mem_cons_self
    simp only [bytes, List.append_eq_nil_iff] at hb
    exact absurd hb.1 hne

/-- The socket has read `got` of its first line. -/
def Reading (s : Sock) (got : Bytes) : Prop := s.buf = got ++ List.replicate (size - got.length) 0 ∧ s.off = got.length ∧ s.queue = [] ∧ s.cur = none

theorem no_newline_prefix {l got more : Bytes} (hl : 10 ∉ l) (hm : more ≠ []) (h : got ++ more = l ++ [10]) : 10 ∉ got := by
  obtain ⟨x, rfl⟩ : ∃ x, got ++ x = l := by
    rcases List.eq_nil_or_concat more with e | ⟨m, z, e⟩
    · exact absurd e hm
    · refine ⟨m, ?_⟩
      rw [e, List.concat_eq_append, ← List.append_assoc] at h
      exact (List.append_inj' h rfl).1
  exact fun hx => hl (List.mem_append_left _ hx)

theorem read_more (line : Bytes → Line α) (l : Bytes) (hl : IsLine l) (c : α) (hc : line l = .cmd c) : ∀ (rs : List Rx) (n : Nat) (s : Sock) (got fut : Bytes), work rs ≤ n → AllSegs rs → Reading s got →
    got ++ bytes rs ++ fut = l ++ [10] →
    (fut ≠ [] → ∃ q, Sock.read line n s rs = (q, [], none) ∧ Reading q (got ++ bytes rs)) ∧
    (fut = [] → rs ≠ [] → ∃ q, Sock.read line n s rs = (q, [], some (.cmd c)) ∧ q.queue = [] ∧ q.cur = none) := by
  intro rs
  induction rs with
  | nil =>
    intro n s got fut hn _ hs _
    obtain ⟨n, rfl⟩ : ∃ i, n = i + 1 := ⟨n - 1, by simp [work] at hn; omega⟩
    exact ⟨fun _ => ⟨s, rfl, by simpa [bytes] using hs⟩, fun _ h => absurd rfl h⟩
  | cons r rs ih =>
    intro n s got fut hn hseg hs he
    obtain ⟨b, rfl, hne⟩ := hseg r List.mem_cons_self
    have hseg' : AllSegs rs := fun x hx => hseg x (List.mem_cons_of_mem _ hx)
    simp only [work] at hn
    obtain ⟨n, rfl⟩ : ∃ i, n = i + 1 := ⟨n - 1, by omega⟩
    simp only [bytes] at he
    obtain ⟨hbuf, hoff, hq, hcur⟩ := hs
    have hlen : got.length + b.length + (bytes rs).length + fut.length = l.length + 1 := by
      have := congrArg List.length he
      simp only [List.length_append, List.length_cons, List.length_nil] at this
      omega
    have hsz := hl.2
    have hbl : s.buf.length = size := by
      rw [hbuf]
      simp only [List.length_append, List.length_replicate]
      omega
    have hg : b.take (s.buf.length - s.off) = b := by
      rw [List.take_of_length_le]
      rw [hbl, hoff]
      omega
    have hfill : (s.fill b).buf = (got ++ b) ++ List.replicate (size - (got ++ b).length) 0 := by
      unfold Sock.fill
      dsimp only
      rw [hbuf, hoff, List.take_left, List.drop_append, List.drop_of_length_le (by omega), List.nil_append, List.drop_replicate]
      congr 2
      simp only [List.length_append]
      omega
    rw [read_seg, hg, if_neg hne, if_pos rfl]
    by_cases hlast : bytes rs = [] ∧ fut = []
    · obtain ⟨hb0, hf0⟩ := hlast
      refine ⟨fun h => absurd hf0 h, fun _ _ => ?_⟩
      have hrs := bytes_nil hseg' hb0
      rw [hb0, hf0, List.append_nil, List.append_nil] at he
      have hscan : (s.fill b).scan line b.length = ({ s.fill b with off := 0 }, some (.cmd c)) := by
        have hfull : (s.fill b).buf = l ++ 10 :: List.replicate (size - (l ++ [10]).length) 0 := by
          rw [hfill, he, List.append_assoc]
          rfl
        unfold Sock.scan
        rw [hfull, newline_line _ _ hl.1]
        dsimp only
        rw [List.take_left, hc, ← hfull]
      rw [hscan, hrs]
      exact ⟨_, rfl, hq, hcur⟩
    · have hmore : bytes rs ++ fut ≠ [] := fun e => hlast (List.append_eq_nil_iff.mp e)
      have hnn : 10 ∉ got ++ b := no_newline_prefix hl.1 hmore (by rw [← he]; simp)
      have hscan : (s.fill b).scan line b.length = ({ s.fill b with off := s.off + b.length }, none) := by
        unfold Sock.scan
        rw [hfill, newline_none]
        · rw [← hfill]
          rfl
        · intro h
          rcases List.mem_append.mp h with h | h
          · exact hnn h
          · exact absurd (List.mem_replicate.mp h).2 (by decide)
      rw [hscan]
      dsimp only
      have hR : Reading { s.fill b with off := s.off + b.length } (got ++ b) := ⟨hfill, by rw [hoff]; simp, hq, hcur⟩
      obtain ⟨i1, i2⟩ := ih n { s.fill b with off := s.off + b.length } (got ++ b) fut (by omega) hseg' hR (by rw [← he]; simp)
      constructor
      · intro hf
        obtain ⟨q, h1, h2⟩ := i1 hf
        exact ⟨q, h1, by simp only [bytes, ← List.append_assoc]; exact h2⟩
      · intro hf _
        have hrs : rs ≠ [] := fun e => hlast ⟨by rw [e]; rfl, hf⟩
        exact i2 hf hrs

theorem first_line (line : Bytes → Line α) (l : Bytes) (hl : IsLine l) (c : α) (hc : line l = .cmd c) (cs : List α) (ops : List Op) : ∀ (s : Sys α) (got : Bytes), s.live = true → s.cmds = cs → Reading s.sock got →
    AllSegs s.inbox → AllSegs (arrivals ops) → sends ops = [] → got ++ bytes s.inbox ++ bytes (arrivals ops) = l ++ [10] → (s.inbox = [] ∧ arrivals ops = [] → False) → ∀ ws, (s.run line (ops ++ [.poll ws])).cmds = cs ++ [c] := by
  have polled : ∀ (s : Sys α) (got : Bytes), s.live = true → s.cmds = cs → Reading s.sock got → AllSegs s.inbox → ∀ (fut : Bytes) ws, got ++ bytes s.inbox ++ fut = l ++ [10] →
      (fut ≠ [] → (s.step line (.poll ws)).live = true ∧ (s.step line (.poll ws)).cmds = cs ∧ Reading (s.step line (.poll ws)).sock (got ++ bytes s.inbox) ∧ (s.step line (.poll ws)).inbox = []) ∧
      (fut = [] → s.inbox ≠ [] → (s.step line (.poll ws)).cmds = cs ++ [c] ∧ (s.step line (.poll ws)).inbox = [] ∧ (s.step line (.poll ws)).sock.queue = [] ∧ (s.step line (.poll ws)).sock.cur = none) := by
    intro s got hlive hcs hR hseg fut ws he
    obtain ⟨h1, h2⟩ := read_more line l hl c hc s.inbox (work s.inbox) s.sock got fut (Nat.le_refl _) hseg hR he
    constructor
    · intro hf
      obtain ⟨q, e, hq⟩ := h1 hf
      have e' : s.sock.poll line s.inbox ws = (q, [], .pending) := by
        unfold Sock.poll
        rw [e]
        dsimp only
        have : Sock.write (q.writeWork ws) q ws = (q, true) := by
          unfold Sock.writeWork Sock.write
          rw [hq.2.2.2, hq.2.2.1]
        rw [this]
      have e2 : s.step line (.poll ws) = { s with sock := q, inbox := [] } := by
        unfold Sys.step
        rw [hlive]
        simp only [Bool.true_eq_false, if_false]
        rw [e']
      rw [e2]
      exact ⟨hlive, hcs, hq, rfl⟩
    · intro hf hi
      obtain ⟨q, e, hq, hcur⟩ := h2 hf hi
      have e' : s.sock.poll line s.inbox ws = (q, [], .cmd c) := by
        unfold Sock.poll
        rw [e]
      have e2 : s.step line (.poll ws) = { s with sock := q, inbox := [], cmds := s.cmds ++ [c] } := by
        unfold Sys.step
        rw [hlive]
        simp only [Bool.true_eq_false, if_false]
        rw [e']
      rw [e2]
      exact ⟨by rw [hcs], rfl, hq, hcur⟩
  induction ops with
  | nil =>
    intro s got hlive hcs hR hseg _ _ he hno ws
    simp only [arrivals, bytes] at he
    have := (polled s got hlive hcs hR hseg [] ws he).2 rfl (fun e => hno ⟨e, rfl⟩)
    exact this.1
  | cons o ops ih =>
    intro s got hlive hcs hR hseg harr hsend he hno ws
    show ((s.step line o).run line (ops ++ [.poll ws])).cmds = _
    cases o with
    | send m => cases hsend
    | arrive r =>
      have e : s.step line (.arrive r) = { s with inbox := s.inbox ++ [r] } := by
        unfold Sys.step
        rw [hlive]
        rfl
      rw [e]
      have hr : ∃ b, r = .seg b ∧ b ≠ [] := harr r List.mem_cons_self
      refine ih { s with inbox := s.inbox ++ [r] } got hlive hcs hR ?_ (fun x hx => harr x (List.mem_cons_of_mem _ hx)) hsend ?_ ?_ ws
      · intro x hx
        rcases List.mem_append.mp hx with hx | hx
        · exact hseg x hx
        · rw [List.mem_singleton] at hx
          subst hx
          exact hr
      · rw [← he]
        obtain ⟨b, rfl, _⟩ := hr
        simp [arrivals, bytes, bytes_append]
      · rintro ⟨h, _⟩
        simp at h
    | poll w =>
      simp only [arrivals] at harr he hno
      obtain ⟨h1, h2⟩ := polled s got hlive hcs hR hseg (bytes (arrivals ops)) w he
      by_cases hb : bytes (arrivals ops) = []
      · have ha := bytes_nil harr hb
        obtain ⟨i1, i2, i3, i4⟩ := h2 hb fun e => hno ⟨e, ha⟩
        have hops : ∀ (ops : List Op), arrivals ops = [] → sends ops = [] → ∃ pw : List (List Wr), ops = pw.map Op.poll := by
          intro ops
          induction ops with
          | nil => intro _ _; exact ⟨[], rfl⟩
          | cons o ops ih =>
            intro ha hs
            cases o with
            | arrive r => cases ha
            | send m => cases hs
            | poll w =>
              obtain ⟨pw, e⟩ := ih ha hs
              exact ⟨w :: pw, by rw [e]; rfl⟩
        obtain ⟨pw, e⟩ := hops (ops ++ [.poll ws]) (by
            have : ∀ a : List Op, arrivals (a ++ [.poll ws]) = arrivals a := by
              intro a
              induction a with
              | nil => rfl
              | cons o a ih => cases o <;> simp [arrivals, ih]
            rw [this]; exact ha) (by
            have : ∀ a : List Op, sends (a ++ [.poll ws]) = sends a := by
              intro a
              induction a with
              | nil => rfl
              | cons o a ih => cases o <;> simp [sends, ih]
            rw [this]; exact hsend)
        rw [e, polls_idle line pw _ i3 i4 i2]
        exact i1
      · obtain ⟨i1, i2, i3, i4⟩ := h1 hb
        refine ih _ (got ++ bytes s.inbox) i1 i2 i3 (by rw [i4]; exact fun _ h => nomatch h) harr hsend (by rw [i4]; simpa [bytes] using he) ?_ ws
        rintro ⟨_, h⟩
        exact hb (by rw [h]; rfl)

/-- The first line of a client is understood however it is cut into segments and whenever the socket is polled in between. -/
theorem C164_first_partial (line : Bytes → Line α) (l : Bytes) (hl : IsLine l) (c : α) (hc : line l = .cmd c) (ops : List Op) (ha : AllSegs (arrivals ops)) (hs : sends ops = [])
    (hb : bytes (arrivals ops) = l ++ [10]) (ws : List Wr) : (({ sock := Sock.new } : Sys α).run line (ops ++ [.poll ws])).cmds = [c] := by
  refine first_line line l hl c hc [] ops ({ sock := Sock.new } : Sys α) [] rfl rfl ⟨by simp [Sock.new], rfl, rfl, rfl⟩ (fun _ h => nomatch h) ha hs (by simpa [bytes] using hb) ?_ ws
  rintro ⟨_, h⟩
  rw [h] at hb
  simp [bytes] at hb

/-- A line that arrives together with the line before it is never seen, however often the socket is polled. -/
theorem C164_together_violated (line : Bytes → Line α) (s : Sys α) (hf : Fresh s) (hi : s.inbox = []) (l₁ l₂ l₃ : Bytes) (h₁ : 10 ∉ l₁) (h₃ : IsLine l₃) (hlen : l₁.length + 1 + (l₂.length + 1) ≤ size)
    (c₁ c₃ : α) (e₁ : line l₁ = .cmd c₁) (e₃ : line l₃ = .cmd c₃) (ws : List Wr) (pw : List (List Wr)) :
    (s.run line ([.arrive (.seg (l₁ ++ [10] ++ l₂ ++ [10])), .poll ws] ++ pw.map .poll ++ [.arrive (.seg (l₃ ++ [10])), .poll ws])).cmds = s.cmds ++ [c₁, c₃] := by
  have hr : l₁.length + 1 + (l₂ ++ [10]).length ≤ size := by simp; omega
  have e := one_line line s hf hi l₁ (l₂ ++ [10]) h₁ hr ws (by rw [e₁]; exact nofun)
  have hseg : l₁ ++ [10] ++ l₂ ++ [10] = l₁ ++ 10 :: (l₂ ++ [10]) := by simp
  rw [hseg]
  unfold Sys.run at *
  rw [List.foldl_append, List.foldl_append, e]
  have hf' := fresh_line hf l₁ (l₂ ++ [10]) hr (s.cmds ++ [c₁])
  rw [e₁]
  have := polls_idle line pw _ hf'.2.2.2.1 hf'.2.2.2.2 hi
  unfold Sys.run at this
  dsimp only at this ⊢
  rw [this]
  have hlen3 : l₃.length + 1 + ([] : Bytes).length ≤ size := by have := h₃.2; simp; omega
  have e' := one_line line _ hf' hi l₃ [] h₃.1 hlen3 ws (by rw [e₃]; exact nofun)
  unfold Sys.run at e'
  rw [e', e₃]
  simp

/-- Bytes of the line before are taken for the rest of a line of which only a part has arrived: the client is answered for a command that it never sent. -/
theorem C164_stale_violated (line : Bytes → Line α) (s : Sys α) (hf : Fresh s) (hi : s.inbox = []) (l₁ a : Bytes) (h₁ : IsLine l₁) (ha : 10 ∉ a) (hne : a ≠ []) (hle : a.length ≤ l₁.length)
    (c₁ c : α) (e₁ : line l₁ = .cmd c₁) (e : line (a ++ l₁.drop a.length) = .cmd c) (ws : List Wr) :
    (s.run line [.arrive (.seg (l₁ ++ [10])), .poll ws, .arrive (.seg a), .poll ws]).cmds = s.cmds ++ [c₁, c] := by
  have hlen1 : l₁.length + 1 + ([] : Bytes).length ≤ size := by have := h₁.2; simp; omega
  have e1 := one_line line s hf hi l₁ [] h₁.1 hlen1 ws (by rw [e₁]; exact nofun)
  have hf' := fresh_line hf l₁ [] hlen1 (s.cmds ++ [c₁])
  show ((s.run line [.arrive (.seg (l₁ ++ [10])), .poll ws]).run line [.arrive (.seg a), .poll ws]).cmds = _
  rw [e1, e₁]
  dsimp only
  generalize hq : ({ s with sock := { s.sock with buf := l₁ ++ [10] ++ s.sock.buf.drop (l₁.length + 1 + ([] : Bytes).length) }, cmds := s.cmds ++ [c₁] } : Sys α) = q at hf' ⊢
  have hbuf : q.sock.buf = l₁ ++ [10] ++ s.sock.buf.drop (l₁.length + 1 + ([] : Bytes).length) := by rw [← hq]
  have hcmds : q.cmds = s.cmds ++ [c₁] := by rw [← hq]
  have hqi : q.inbox = [] := by rw [← hq]; exact hi
  obtain ⟨hb, ho, hlive, hqq, hqc⟩ := hf'
  have e2 : q.step line (.arrive (.seg a)) = { q with inbox := [.seg a] } := by
    unfold Sys.step
    rw [hlive, hqi]
    rfl
  show ((q.step line _).step line (.poll ws)).cmds = _
  rw [e2]
  have hg : a.take (q.sock.buf.length - q.sock.off) = a := by
    rw [List.take_of_length_le]
    have := h₁.2
    rw [hb, ho]
    omega
  have hfill : (q.sock.fill a).buf = (a ++ l₁.drop a.length) ++ 10 :: s.sock.buf.drop (l₁.length + 1 + ([] : Bytes).length) := by
    unfold Sock.fill
    dsimp only
    rw [ho, hbuf, List.take_zero, List.nil_append, Nat.zero_add, List.append_assoc l₁, List.drop_append_of_le_length hle]
    simp
  have hnn : 10 ∉ a ++ l₁.drop a.length := by
    intro h
    rcases List.mem_append.mp h with h | h
    · exact ha h
    · exact h₁.1 (List.mem_of_mem_drop h)
  have hread : Sock.read line (work [.seg a]) q.sock [.seg a] = ({ q.sock.fill a with off := 0 }, [], some (.cmd c)) := by
    rw [show work [.seg a] = (a.length + 1) + 1 from rfl, read_seg, hg, if_neg hne, if_pos rfl]
    have : (q.sock.fill a).scan line a.length = ({ q.sock.fill a with off := 0 }, some (.cmd c)) := by
      unfold Sock.scan
      rw [hfill, newline_line _ _ hnn]
      dsimp only
      rw [List.take_left, e, ← hfill]
    rw [this]
  unfold Sys.step
  simp only [hlive, Bool.true_eq_false, if_false]
  unfold Sock.poll
  rw [hread]
  dsimp only
  rw [hcmds]
  simp

theorem scan_none (line : Bytes → Line α) (s : Sock) (n : Nat) (h : 10 ∉ s.buf) : s.scan line n = ({ s with off := s.off + n }, none) := by
  unfold Sock.scan
  rw [newline_none _ h]

/-- A line that does not fit into the buffer closes the socket. -/
theorem C164_long_violated (line : Bytes → Line α) (b : Bytes) (hb : size < b.length) (hn : 10 ∉ b.take size) (ws : List Wr) :
    (({ sock := Sock.new } : Sys α).run line [.arrive (.seg b), .poll ws]).live = false := by
  have hread : ∀ n, Sock.read line (n + 1 + 1) Sock.new [.seg b] = ({ Sock.new.fill (b.take size) with off := size }, [], some .closed) := by
    intro n
    have h1 : Sock.new.buf.length - Sock.new.off = size := by simp [Sock.new]
    have h2 : (b.take size).length = size := by rw [List.length_take]; omega
    have hne : b.take size ≠ [] := by
      intro h
      rw [h] at h2
      exact absurd h2 (by decide)
    have hfill : (Sock.new.fill (b.take size)).buf = b.take size := by
      unfold Sock.fill
      dsimp only
      rw [h2]
      show List.take 0 _ ++ _ ++ List.drop (0 + size) (List.replicate size 0) = _
      rw [List.drop_of_length_le (by simp)]
      simp
    have hscan : (Sock.new.fill (b.take size)).scan line (b.take size).length = ({ Sock.new.fill (b.take size) with off := size }, none) := by
      rw [scan_none line _ _ (by rw [hfill]; exact hn), h2]
      have : (Sock.new.fill (b.take size)).off + size = size := Nat.zero_add _
      rw [this]
    rw [read_seg, h1, if_neg hne, hscan, h2, if_neg (by omega)]
    dsimp only
    rw [read_seg]
    have : ({ Sock.new.fill (b.take size) with off := size } : Sock).buf.length - ({ Sock.new.fill (b.take size) with off := size } : Sock).off = 0 := by
      show (Sock.new.fill (b.take size)).buf.length - size = 0
      rw [hfill, h2]
      exact Nat.sub_self _
    rw [this, List.take_zero, if_pos rfl]
  have e1 : ({ sock := Sock.new } : Sys α).step line (.arrive (.seg b)) = { sock := Sock.new, inbox := [.seg b] } := rfl
  have e2 : Sock.poll line Sock.new [.seg b] ws = ({ Sock.new.fill (b.take size) with off := size }, [], .closed) := by
    unfold Sock.poll
    rw [show work [.seg b] = b.length + 1 + 1 from rfl, hread]
  unfold Sys.run
  rw [List.foldl_cons, e1, List.foldl_cons, List.foldl_nil]
  generalize Sock.new = k at e2 ⊢
  unfold Sys.step
  simp only [Bool.true_eq_false, if_false]
  rw [e2]

/-! ## Cases that meet the hypotheses -/

/-- Every line is a command, except an empty one. -/
def toyLine (l : Bytes) : Line Bytes := if l = [] then .bad else .cmd l
/-- The socket is written to, takes two bytes, is written to again and takes the rest. -/
def toyOps : List Op := [.send [1, 2, 3], .poll [.took 2, .full], .send [4, 5]]
/-- A socket that has just been made. -/
def toyNew : Sys Bytes := { sock := Sock.new }
theorem toy_fresh : Fresh toyNew := ⟨List.length_replicate, rfl, rfl, rfl, rfl⟩
example : (toyNew.run toyLine toyOps).sock.written = [1, 2] ∧ (toyNew.run toyLine toyOps).sock.rest = [3, 4, 5] := by decide +kernel
example := C163_order toyLine toyOps
example := C163_kept toyLine toyOps (by decide +kernel)
example := C163_flushed toyLine toyOps 3 2 (by decide +kernel) (by decide +kernel) (by decide +kernel) (by decide +kernel)
example : (toyNew.run toyLine (toyOps ++ [.poll (greedy 2 3)])).sock.written = [1, 2, 3, 4, 5] := by decide +kernel
theorem toy_line (l : Bytes) (h : 10 ∉ l) (hl : l.length < 4096) : IsLine l := ⟨h, hl⟩
example := C164_lines_partial toyLine [([7, 8], []), ([], [.full]), ([9], [])] toyNew toy_fresh rfl (fun l h => by
  simp only [List.mem_cons, List.not_mem_nil, or_false] at h
  rcases h with rfl | rfl | rfl <;> exact ⟨⟨by decide, by decide⟩, by decide⟩)
example : (toyNew.run toyLine [.arrive (.seg [7, 8, 10]), .poll [], .arrive (.seg [10]), .poll [], .arrive (.seg [9, 10]), .poll []]).cmds = [[7, 8], [9]] := by decide +kernel
example := C164_first_partial toyLine [7, 8] (toy_line _ (by decide) (by decide)) [7, 8] (by decide) [.arrive (.seg [7]), .poll [], .arrive (.seg [8]), .arrive (.seg [10]), .poll []]
  (fun r h => by
    simp only [arrivals, List.mem_cons, List.not_mem_nil, or_false] at h
    rcases h with rfl | rfl | rfl <;> exact ⟨_, rfl, by decide⟩) rfl rfl []
example := C164_together_violated toyLine toyNew toy_fresh rfl [7, 8] [5] [9] (by decide) (toy_line _ (by decide) (by decide)) (by decide) [7, 8] [9] (by decide) (by decide) [] [[], []]
example := C164_stale_violated toyLine toyNew toy_fresh rfl [7, 8] [9] (toy_line _ (by decide) (by decide)) (by decide) (by decide) (by decide) [7, 8] [9, 8] (by decide) (by decide) []
/-- The client sent the lines `7 8` and `9 9`, the second one in two parts: the socket has understood `9 8`, and then the rest of the second line. -/
example : (toyNew.run toyLine [.arrive (.seg [7, 8, 10]), .poll [], .arrive (.seg [9]), .poll [], .arrive (.seg [9, 10]), .poll []]).cmds = [[7, 8], [9, 8], [9]] := by decide +kernel
example := C164_long_violated toyLine (List.replicate 5000 7) (by decide +kernel) (by decide +kernel) []

end Emissary.SamSocket

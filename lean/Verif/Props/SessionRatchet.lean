import Verif.Props.SessionChat
/-!
# Garlic sessions: a conversation over any number of ratchets
-/
namespace Emissary.Ecies
open Emissary Emissary.I2np Emissary.Garlic
open Emissary.Ssu2 (Prims)
open Emissary.Ntcp2 (unle le)
open Emissary.Ratchet

/-! ## Specification -/

/-- A turn in a conversation of two destinations: who speaks, the time and random values of the one who speaks and of the one who listens, and the data. -/
structure Turn where
  mine : Bool
  v : Draw
  u : Draw
  msg : Bytes

/-- One turn: `s` sends the data to `r`, and the message arrives. -/
def speak (C : Cfg) (s r : Mgr) (idr : Bytes) (t : Turn) : Out (List Clove) × Mgr × Mgr :=
  match s.encrypt C t.v idr t.msg with
  | (.ok out, s) => let x := r.decrypt C t.u out; (x.1, s, x.2)
  | (.error e, s) => (.error e, s, r)
  | (.panic, s) => (.panic, s, r)

/-- A conversation of `m` and `n`: what each message is read as, and the two afterwards. -/
def converse (C : Cfg) (idm idn : Bytes) : Mgr → Mgr → List Turn → List (Out (List Clove)) × Mgr × Mgr
  | m, n, [] => ([], m, n)
  | m, n, t :: ts =>
    if t.mine then let x := speak C m n idn t; let r := converse C idm idn x.2.1 x.2.2 ts; (x.1 :: r.1, r.2)
    else let x := speak C n m idm t; let r := converse C idm idn x.2.2 x.2.1 ts; (x.1 :: r.1, r.2)

/-- Nobody speaks more than `b` times in a row (`last` spoke last, `run` times). -/
def Polite (b : Nat) : Bool → Nat → List Turn → Prop
  | _, _, [] => True
  | last, run, t :: ts => let run' := if t.mine = last then run + 1 else 1; run' ≤ b ∧ Polite b t.mine run' ts

/-! ## Tag sets -/

/-- A tag set of which `i` entries were taken. -/
def tset (P : Prims) (c : Chain) (k i : Nat) (st : KeyState) : TagSet := { chain := c.iter P i, state := st, index := i, id := k }

/-- The chain after a ratchet. -/
def nextChain (P : Prims) (c : Chain) (sk pk : Bytes) : Chain := Chain.new P c.nextRoot (P.hmac (P.hmac (P.dh sk pk) []) (lblTagSet ++ [1]))

theorem tset_next (P : Prims) (c : Chain) (k i : Nat) (st : KeyState) (h : i < 65535) :
    (tset P c k i st).next P = (some (c.entry P k i), tset P c k (i + 1) st) := by
  have : (tset P c k i st).index + 1 < 2 ^ 16 := by show i + 1 < 2 ^ 16; omega
  rw [TagSet.next, if_pos this]; rfl

theorem tset_next_none (P : Prims) (c : Chain) (k i : Nat) (st : KeyState) (h : ¬ i < 65535) : (tset P c k i st).next P = (none, tset P c k i st) := by
  have : ¬ (tset P c k i st).index + 1 < 2 ^ 16 := by show ¬ i + 1 < 2 ^ 16; omega
  rw [TagSet.next, if_neg this]

theorem tset_reinit (P : Prims) (c : Chain) (k i : Nat) (st : KeyState) (sk pk : Bytes) (a b : Nat) :
    (tset P c k i st).reinit P sk pk a b = tset P (nextChain P c sk pk) (1 + a + b) 0 (.active a b sk pk) := by
  simp only [TagSet.reinit, tset, nextChain, iter_nextRoot, Chain.iter]

theorem tset_nexts (P : Prims) (c : Chain) (k : Nat) (st : KeyState) (n : Nat) : ∀ i, i + n ≤ 65535 →
    TagSet.nexts P n (tset P c k i st) = some ((List.range' i n).map (c.entry P k), tset P c k (i + n) st) := by
  induction n with
  | zero => intro i _; rfl
  | succ n ih =>
    intro i h
    simp only [TagSet.nexts, tset_next P c k i st (by omega)]
    rw [ih (i + 1) (by omega), List.range'_succ, List.map_cons, show i + 1 + n = i + (n + 1) by omega]
    rfl

theorem tset_upTo (P : Prims) (c : Chain) (k : Nat) (st : KeyState) (n : Nat) : ∀ i, i ≤ 65535 → ∃ q, i + q ≤ 65535 ∧
    TagSet.upTo P n (tset P c k i st) = ((List.range' i q).map (c.entry P k), tset P c k (i + q) st) := by
  induction n with
  | zero => intro i h; exact ⟨0, h, rfl⟩
  | succ n ih =>
    intro i h
    by_cases hi : i < 65535
    · obtain ⟨q, h1, h2⟩ := ih (i + 1) (by omega)
      refine ⟨q + 1, by omega, ?_⟩
      simp only [TagSet.upTo, tset_next P c k i st hi]
      rw [h2, List.range'_succ, List.map_cons, show i + 1 + q = i + (q + 1) by omega]
    · obtain ⟨q, h1, h2⟩ := ih i h
      refine ⟨q, h1, ?_⟩
      simp only [TagSet.upTo, tset_next_none P c k i st hi]
      exact h2

/-- The key states of the two ends of a tag set with id `k`: the one that sends with it and the one that receives. -/
inductive Paired (P : Prims) : Nat → KeyState → KeyState → Prop
  | fresh : Paired P 0 .uninit .uninit
  | odd (a : Nat) (sk sk' : Bytes) : Paired P (1 + a + a) (.active a a sk (P.pub sk')) (.active a a sk' (P.pub sk))
  | even (a : Nat) (sk sk' : Bytes) : Paired P (1 + (a + 1) + a) (.active (a + 1) a sk (P.pub sk')) (.active (a + 1) a sk' (P.pub sk))

/-- The sender has asked for a ratchet with `f`, the receiver has made it and answers with `r`; the next chain is `c'`. -/
inductive Asked (P : Prims) (c : Chain) : Nat → KeyState → KeyState → NextKey → NextKey → Chain → Prop
  | fresh (sk sk' : Bytes) : Asked P c 0 (.awaiting 0 0 sk) (.active 0 0 sk' (P.pub sk)) (.forward 0 (some (P.pub sk)) true) (.reverse 0 (some (P.pub sk')))
      (nextChain P c sk' (P.pub sk))
  | odd (a : Nat) (sk sk' : Bytes) (h : a + 1 ≤ maxKeyId) : Asked P c (1 + a + a) (.confirming (a + 1) a sk (P.pub sk')) (.active (a + 1) a sk' (P.pub sk))
      (.forward (a + 1) (some (P.pub sk)) false) (.reverse a none) (nextChain P c sk' (P.pub sk))
  | even (a : Nat) (sk sk' : Bytes) (h : a + 1 ≤ maxKeyId) : Asked P c (1 + (a + 1) + a) (.awaiting (a + 1) (a + 1) sk) (.active (a + 1) (a + 1) sk' (P.pub sk))
      (.forward (a + 1) none true) (.reverse (a + 1) (some (P.pub sk'))) (nextChain P c sk' (P.pub sk))

theorem Paired.quiet (P : Prims) (chk : Bool) (c : Chain) (k i : Nat) (st : KeyState) (sk : Bytes) (h : i ≤ 20000) :
    (tset P c k i st).tryGenerate P chk sk = (.ok none, tset P c k i st) := by
  rw [TagSet.tryGenerate, if_pos]; exact h

theorem not_le_threshold {P : Prims} {c : Chain} {k i : Nat} {st : KeyState} (h : 20000 < i) : ¬ (tset P c k i st).index ≤ ratchetThreshold := by
  show ¬ i ≤ 20000; omega

theorem Paired.ask {P : Prims} {k : Nat} {st st' : KeyState} (h : Paired P k st st') (hk : k ≤ 65534) (chk : Bool) (c : Chain) {i : Nat} (hi : 20000 < i) (sk : Bytes) :
    ∃ st2 f, (tset P c k i st).tryGenerate P chk sk = (.ok (some f), tset P c k i st2) ∧ (∃ x y z, f = .forward x y z) ∧
      ∀ sk', ∃ str ans c', Asked P c k st2 str f ans c' ∧ ∀ n, (tset P c k n st').canRatchet f = true ∧
        (tset P c k n st').handle P chk sk' f = (.ok (some ans), tset P c' (k + 1) 0 str) := by
  have hm : maxKeyId = 32767 := rfl
  cases h with
  | fresh =>
    refine ⟨.awaiting 0 0 sk, .forward 0 (some (P.pub sk)) true, ?_, ⟨_, _, _, rfl⟩, fun sk' => ⟨_, _, _, .fresh sk sk', fun n => ⟨rfl, ?_⟩⟩⟩
    · rw [TagSet.tryGenerate, if_neg (not_le_threshold hi)]; rfl
    · simp only [TagSet.handle]
      show (_, TagSet.reinit ..) = _
      rw [tset_reinit]
  | odd a s s' =>
    refine ⟨.confirming (a + 1) a sk (P.pub s'), .forward (a + 1) (some (P.pub sk)) false, ?_, ⟨_, _, _, rfl⟩, fun sk' => ⟨_, _, _, .odd a sk s' (by omega), fun n => ⟨?_, ?_⟩⟩⟩
    · rw [TagSet.tryGenerate, if_neg (not_le_threshold hi)]
      have e : (tset P c (1 + a + a) i (.active a a s (P.pub s'))).id % 2 ≠ 0 := by show (1 + a + a) % 2 ≠ 0; omega
      show (if _ then (if _ then _ else _) else _) = _
      rw [if_pos e, if_neg (by omega)]; rfl
    · show (decide (a < a + 1) && decide (a + 1 ≤ maxKeyId)) = true
      simp; omega
    · have e : decide (a < a + 1) = true := by simp
      simp only [TagSet.handle, tset, e]
      rw [if_neg (by omega)]
      have := tset_reinit P c (1 + a + a) n (.active a a s' (P.pub s)) s' (P.pub sk) (a + 1) a
      rw [tset] at this
      rw [this]
      have : 1 + (a + 1) + a = 1 + a + a + 1 := by omega
      rw [this]
      rfl
  | even a s s' =>
    refine ⟨.awaiting (a + 1) (a + 1) s, .forward (a + 1) none true, ?_, ⟨_, _, _, rfl⟩, fun sk' => ⟨_, _, _, .even a s sk' (by omega), fun n => ⟨?_, ?_⟩⟩⟩
    · rw [TagSet.tryGenerate, if_neg (not_le_threshold hi)]
      have e : ¬ (tset P c (1 + (a + 1) + a) i (.active (a + 1) a s (P.pub s'))).id % 2 ≠ 0 := by show ¬ (1 + (a + 1) + a) % 2 ≠ 0; omega
      show (if _ then _ else (if _ then _ else _)) = _
      rw [if_neg e, if_neg (by omega)]; rfl
    · show (decide (a < a + 1) && decide (a + 1 ≤ maxKeyId)) = true
      simp; omega
    · have e : decide (a < a + 1) = true := by simp
      simp only [TagSet.handle, tset, e]
      rw [if_neg (by omega)]
      have := tset_reinit P c (1 + (a + 1) + a) n (.active (a + 1) a s' (P.pub s)) sk' (P.pub s) (a + 1) (a + 1)
      rw [tset] at this
      rw [this]
      have : 1 + (a + 1) + (a + 1) = 1 + (a + 1) + a + 1 := by omega
      rw [this]
      rfl

theorem Asked.again {P : Prims} {c : Chain} {k : Nat} {st str : KeyState} {f ans : NextKey} {c' : Chain} (h : Asked P c k st str f ans c') (chk : Bool) {i : Nat}
    (hi : 20000 < i) (sk : Bytes) : (tset P c k i st).tryGenerate P chk sk = (.ok (some f), tset P c k i st) ∧
      ∀ n sk', (tset P c' (k + 1) n str).canRatchet f = false ∧ (tset P c' (k + 1) n str).handle P chk sk' f = (.ok (some ans), tset P c' (k + 1) n str) := by
  cases h with
  | fresh s s' =>
    refine ⟨?_, fun n sk' => ⟨rfl, rfl⟩⟩
    rw [TagSet.tryGenerate, if_neg (not_le_threshold hi)]; rfl
  | odd a s s' hm =>
    refine ⟨?_, fun n sk' => ⟨?_, ?_⟩⟩
    · rw [TagSet.tryGenerate, if_neg (not_le_threshold hi)]; rfl
    · show (decide (a + 1 < a + 1) && decide (a + 1 ≤ maxKeyId)) = false
      simp
    · have e : decide (a + 1 < a + 1) = false := by simp
      simp only [TagSet.handle, tset, e]
  | even a s s' hm =>
    refine ⟨?_, fun n sk' => ⟨?_, ?_⟩⟩
    · rw [TagSet.tryGenerate, if_neg (not_le_threshold hi)]
      show (Out.ok (some (if a + 1 = 0 ∧ a + 1 = 0 then _ else _)), _) = _
      rw [if_neg (by omega)]
    · show (decide (a + 1 < a + 1) && decide (a + 1 ≤ maxKeyId)) = false
      simp
    · have e : decide (a + 1 < a + 1) = false := by simp
      simp only [TagSet.handle, tset, e]

theorem Asked.answered {P : Prims} (hP : P.Lawful) {c : Chain} {k : Nat} {st str : KeyState} {f ans : NextKey} {c' : Chain} (h : Asked P c k st str f ans c') (chk : Bool) (i : Nat)
    (sk : Bytes) : (∃ x y, ans = .reverse x y) ∧ ∃ st3, (tset P c k i st).handle P chk sk ans = (.ok none, tset P c' (k + 1) 0 st3) ∧ Paired P (k + 1) st3 str := by
  cases h with
  | fresh s s' =>
    refine ⟨⟨_, _, rfl⟩, .active 0 0 s (P.pub s'), ?_, .odd 0 s s'⟩
    simp only [TagSet.handle]
    show (_, TagSet.reinit ..) = _
    rw [tset_reinit, nextChain, hP.dh]; rfl
  | odd a s s' hm =>
    refine ⟨⟨_, _, rfl⟩, .active (a + 1) a s (P.pub s'), ?_, ?_⟩
    · show (_, TagSet.reinit ..) = _
      rw [tset_reinit, nextChain, hP.dh, show 1 + (a + 1) + a = 1 + a + a + 1 by omega]; rfl
    · rw [show 1 + a + a + 1 = 1 + (a + 1) + a by omega]; exact .even a s s'
  | even a s s' hm =>
    refine ⟨⟨_, _, rfl⟩, .active (a + 1) (a + 1) s (P.pub s'), ?_, ?_⟩
    · show (_, TagSet.reinit ..) = _
      rw [tset_reinit, nextChain, hP.dh, show 1 + (a + 1) + (a + 1) = 1 + (a + 1) + a + 1 by omega]; rfl
    · rw [show 1 + (a + 1) + a + 1 = 1 + (a + 1) + (a + 1) by omega]; exact .odd (a + 1) s s'

theorem Asked.ok {P : Prims} (hP : P.Lawful) {c : Chain} {k : Nat} {st str : KeyState} {f ans : NextKey} {c' : Chain} (h : Asked P c k st str f ans c') :
    (Block.nextKey f).Ok ∧ (Block.nextKey ans).Ok := by
  have hm : maxKeyId = 32767 := rfl
  cases h with
  | fresh s s' => exact ⟨⟨by omega, by rintro k ⟨⟩; exact hP.pub _, .inl rfl⟩, ⟨by omega, by rintro k ⟨⟩; exact hP.pub _⟩⟩
  | odd a s s' h => exact ⟨⟨by omega, by rintro k ⟨⟩; exact hP.pub _, .inl rfl⟩, ⟨by omega, by rintro k ⟨⟩⟩⟩
  | even a s s' h => exact ⟨⟨by omega, by rintro k ⟨⟩, .inr rfl⟩, ⟨by omega, by rintro k ⟨⟩; exact hP.pub _⟩⟩

/-! ## Entries that are watched for -/

/-- The entries `L` are watched for, in the session with `d`. -/
structure Held (es : List Entry) (t : TagMap) (d : Bytes) (L : List Entry) : Prop where
  entries : ∀ e ∈ L, entryGet es e.tag = some e
  tags : ∀ e ∈ L, t.map e.tag = some d
  known : ∀ e ∈ L, e.tag ∈ t.log
  nodup : (L.map (·.tag)).Nodup

theorem Held.drop {es : List Entry} {t : TagMap} {d : Bytes} {L L' : List Entry} (h : Held es t d L) (hs : List.Sublist L' L) : Held es t d L' :=
  ⟨fun e he => h.entries e (hs.subset he), fun e he => h.tags e (hs.subset he), fun e he => h.known e (hs.subset he), h.nodup.sublist (hs.map _)⟩

theorem Held.take {es : List Entry} {t : TagMap} {d : Bytes} {e : Entry} {L : List Entry} (h : Held es t d (e :: L)) :
    Held (entryDel es e.tag) (t.remove e.tag) d L := by
  have hn := h.nodup
  simp only [List.map_cons, List.nodup_cons] at hn
  have hne : ∀ x ∈ L, x.tag ≠ e.tag := fun x hx he => hn.1 (he ▸ List.mem_map_of_mem (f := (·.tag)) hx)
  refine ⟨fun x hx => ?_, fun x hx => ?_, fun x hx => h.known x (List.mem_cons_of_mem _ hx), hn.2⟩
  · rw [entryGet_del, if_neg (hne x hx)]; exact h.entries x (List.mem_cons_of_mem _ hx)
  · simp only [TagMap.remove, if_neg (hne x hx)]; exact h.tags x (List.mem_cons_of_mem _ hx)

theorem Held.put {es : List Entry} {t : TagMap} {d : Bytes} {L : List Entry} (h : Held es t d L) (e : Entry) (he : e.tag ∉ t.log) :
    Held (entryPut es e) (t.insert d e.tag) d (L ++ [e]) := by
  have hne : ∀ x ∈ L, x.tag ≠ e.tag := fun x hx hx' => he (hx' ▸ h.known x hx)
  refine ⟨fun x hx => ?_, fun x hx => ?_, fun x hx => ?_, ?_⟩
  · rw [entryGet_put]
    rcases List.mem_append.mp hx with hx | hx
    · rw [if_neg (hne x hx)]; exact h.entries x hx
    · rw [List.mem_singleton.mp hx, if_pos rfl]
  · simp only [TagMap.insert]
    rcases List.mem_append.mp hx with hx | hx
    · rw [if_neg (hne x hx)]; exact h.tags x hx
    · rw [List.mem_singleton.mp hx, if_pos rfl]
  · simp only [TagMap.insert, List.mem_append, List.mem_singleton]
    rcases List.mem_append.mp hx with hx | hx
    · exact .inl (h.known x hx)
    · exact .inr (by rw [List.mem_singleton.mp hx])
  · rw [List.map_append, List.nodup_append]
    refine ⟨h.nodup, by simp, ?_⟩
    intro a ha b hb hab
    obtain ⟨x, hx, rfl⟩ := List.mem_map.mp ha
    simp only [List.map_cons, List.map_nil, List.mem_singleton] at hb
    exact hne x hx (hab.trans hb)

theorem Held.puts {d : Bytes} (new : List Entry) : ∀ {es : List Entry} {t : TagMap} {L : List Entry}, Held es t d L → (t.log ++ new.map (·.tag)).Nodup →
    Held (entryPuts es new) (t.inserts d (new.map (·.tag))) d (L ++ new) := by
  induction new with
  | nil => intro es t L h _; rw [List.append_nil]; exact h
  | cons e new ih =>
    intro es t L h hn
    have h1 : e.tag ∉ t.log := by
      intro hm
      rw [List.nodup_append] at hn
      exact hn.2.2 _ hm _ (by simp) rfl
    have := ih (h.put e h1) (by simpa [TagMap.insert, List.append_assoc] using hn)
    rw [List.append_assoc] at this
    exact this

theorem inserts_log' (d : Bytes) (xs : List Nat) : ∀ t : TagMap, (t.inserts d xs).log = t.log ++ xs := by
  induction xs with
  | nil => intro t; simp [TagMap.inserts]
  | cons x xs ih =>
    intro t
    have e : t.inserts d (x :: xs) = (t.insert d x).inserts d xs := rfl
    rw [e, ih]
    simp [TagMap.insert]

/-- One more entry is watched for after every message. -/
theorem refill_held {C : Cfg} {s : Sess} {t : TagMap} {d : Bytes} {c : Chain} {k n : Nat} {st : KeyState} {L : List Entry} (hr : s.recv = tset C.P c k n st) (hn : n ≤ 65535)
    (h : Held s.entries t d L) :
    ∃ q es t', s.refill C d t = ({ s with recv := tset C.P c k (n + q) st, entries := es }, t') ∧ n + q ≤ 65535 ∧ (n < 65535 → q = 1) ∧
      (t'.log.Nodup → Held es t' d (L ++ (List.range' n q).map (c.entry C.P k))) := by
  by_cases hi : n < 65535
  · have e : s.refill C d t = ({ s with recv := tset C.P c k (n + 1) st, entries := entryPut s.entries (c.entry C.P k n) }, t.insert d (c.entry C.P k n).tag) := by
      simp only [Sess.refill, hr, tset_next _ _ _ _ _ hi]
    rw [e]
    refine ⟨1, _, _, rfl, by omega, fun _ => rfl, fun hl => ?_⟩
    refine h.put _ ?_
    intro hm
    simp only [TagMap.insert, List.nodup_append] at hl
    exact hl.2.2 _ hm _ (by simp) rfl
  · have e : s.refill C d t = ({ s with recv := tset C.P c k n st }, t) := by
      simp only [Sess.refill, hr, tset_next_none _ _ _ _ _ hi]
    rw [e]
    exact ⟨0, s.entries, t, rfl, hn, fun h => absurd h hi, fun _ => by simpa using h⟩

theorem nodup_of_grows {t t' : TagMap} (h : Grows t t') (hn : t'.log.Nodup) : t.log.Nodup := by
  obtain ⟨new, e, _⟩ := h
  rw [e] at hn
  exact (List.nodup_append.mp hn).1

/-- The receiver makes the ratchet that it was asked for. -/
theorem ratchet_held {C : Cfg} {s : Sess} {t : TagMap} {d : Bytes} {c : Chain} {k n : Nat} {st : KeyState} {L : List Entry} {f ans : NextKey} {c' : Chain} {str : KeyState}
    (hr : s.recv = tset C.P c k n st) (hn : n ≤ 65535) (hR : C.T.recv ≤ 65535) (v : Draw) (sk : Bytes) (hf : ∃ x y z, f = .forward x y z)
    (hcan : ∀ n, (tset C.P c k n st).canRatchet f = true) (hh : ∀ n, (tset C.P c k n st).handle C.P C.chk sk f = (.ok (some ans), tset C.P c' (k + 1) 0 str))
    :
    ∃ q es t' ex, s.handleKey C v d sk f t = (.ok (), { s with recv := tset C.P c' (k + 1) C.T.recv str, entries := es, pendingKey := some ans, expiring := ex }, t') ∧ n + q ≤ 65535 ∧
      (Held s.entries t d L → t'.log.Nodup → Held es t' d (L ++ (List.range' n q).map (c.entry C.P k) ++ (List.range' 0 C.T.recv).map (c'.entry C.P (k + 1)))) := by
  obtain ⟨q, h1, h2⟩ := tset_upTo C.P c k st C.T.extra n hn
  obtain ⟨x, y, z, rfl⟩ := hf
  have hx := tset_nexts C.P c' (k + 1) str C.T.recv 0 (by omega)
  rw [Nat.zero_add] at hx
  have e : s.handleKey C v d sk (.forward x y z) t = (.ok (), { s with
      recv := tset C.P c' (k + 1) C.T.recv str
      entries := entryPuts (entryPuts s.entries ((List.range' n q).map (c.entry C.P k))) ((List.range' 0 C.T.recv).map (c'.entry C.P (k + 1)))
      pendingKey := some ans
      expiring := s.expiring ++ [(v.now, (entryPuts s.entries ((List.range' n q).map (c.entry C.P k))).map Entry.tag)] },
      (t.inserts d (((List.range' n q).map (c.entry C.P k)).map (·.tag))).inserts d (((List.range' 0 C.T.recv).map (c'.entry C.P (k + 1))).map (·.tag))) := by
    simp only [Sess.handleKey, hr, hcan, if_true, h2, hh, hx]
  rw [e]
  refine ⟨q, _, _, _, rfl, h1, fun h hl => ?_⟩
  simp only [inserts_log'] at hl
  refine Held.puts _ (Held.puts _ h (List.nodup_append.mp hl).1) ?_
  rw [inserts_log']; exact hl

/-- The receiver is asked again. -/
theorem again_held {C : Cfg} {s : Sess} {t : TagMap} {d : Bytes} {c' : Chain} {k' n : Nat} {f ans : NextKey} {str : KeyState}
    (hr : s.recv = tset C.P c' k' n str) (v : Draw) (sk : Bytes) (hf : ∃ x y z, f = .forward x y z)
    (hcan : (tset C.P c' k' n str).canRatchet f = false) (hh : (tset C.P c' k' n str).handle C.P C.chk sk f = (.ok (some ans), tset C.P c' k' n str)) :
    s.handleKey C v d sk f t = (.ok (), { s with pendingKey := some ans }, t) := by
  obtain ⟨x, y, z, rfl⟩ := hf
  rw [← hr] at hcan hh
  simp only [Sess.handleKey, hcan, hh]
  rfl

/-- The sender gets the answer. -/
theorem answer_key {C : Cfg} {s : Sess} {t : TagMap} {d : Bytes} {T T' : TagSet} {ans : NextKey} (hs : s.send = T) (v : Draw) (sk : Bytes) (ha : ∃ x y, ans = .reverse x y)
    (hh : T.handle C.P C.chk sk ans = (.ok none, T')) : s.handleKey C v d sk ans t = (.ok (), { s with send := T', pendingKey := none }, t) := by
  obtain ⟨x, y, rfl⟩ := ha
  simp only [Sess.handleKey, hs, hh]

/-! ## A message with keys -/

theorem encrypt_out {C : Cfg} {m : Mgr} {d : Bytes} {a : Active} {c : Chain} {k i : Nat} {st st2 : KeyState} {fo : Option NextKey} (ha : m.active.get d = some a)
    (hA : a.inAcks = []) (hL : a.leaseSet = none) (hs : a.s.send = tset C.P c k i st) (hi : i < 65535) (v : Draw) (msg : Bytes)
    (hg : (tset C.P c k (i + 1) st).tryGenerate C.P C.chk (v.keys 0) = (.ok fo, tset C.P c k (i + 1) st2)) (hx : Fits d (v, msg))
    (hok : ∀ f ∈ fo.toList ++ a.s.pendingKey.toList, (Block.nextKey f).Ok) :
    ∃ plain, parse plain = some ((dataFor v d msg).onWire :: (fo.toList ++ a.s.pendingKey.toList).map .nextKey) ∧
      m.encrypt C v d msg = (.ok (prefixed (Entry.seal C.P (c.entry C.P k i) plain)),
        { m with active := m.active.put d { a with s := { a.s with send := tset C.P c k (i + 1) st2, pendingKey := none } } }) := by
  obtain ⟨f1, f2, f3, f4⟩ := hx
  have f4 : msg.length + 50 < 2 ^ 16 := f4
  obtain ⟨plain, hb, hp⟩ := C22_garlic_message_roundtrip (dataFor v d msg :: (fo.toList ++ a.s.pendingKey.toList).map Block.nextKey) (List.cons_ne_nil _ _) (by
    intro b hb
    rcases List.mem_cons.mp hb with rfl | hb
    · exact ⟨f1, f2, f3, by simp only [List.length_append, be_length]; omega⟩
    · obtain ⟨f, hf, rfl⟩ := List.mem_map.mp hb
      exact hok f hf)
  refine ⟨plain, ?_, ?_⟩
  · rw [hp, List.map_cons, List.map_map]; rfl
  · have hes : a.s.encrypt C v [dataClove v 0 d msg] = (.ok (k, i, Entry.seal C.P (c.entry C.P k i) plain),
        { a.s with send := tset C.P c k (i + 1) st2, pendingKey := none }) := by
      simp only [Sess.encrypt, hs, tset_next _ _ _ _ _ hi, hg]
      have e : [dataClove v 0 d msg] ++ fo.toList.map Block.nextKey ++ a.s.pendingKey.toList.map Block.nextKey =
          dataFor v d msg :: (fo.toList ++ a.s.pendingKey.toList).map Block.nextKey := by
        rw [List.map_append]; rfl
      rw [e, hb]
      rfl
    simp only [Mgr.encrypt, ha, hA, hL, List.isEmpty_nil, if_true, List.append_nil, hes, Option.isNone_none]

theorem decrypt_in {C : Cfg} (hP : C.P.Lawful) {n : Mgr} {d : Bytes} {b : Active} {c : Chain} {k i : Nat} (hb : n.active.get d = some b)
    (he : entryGet b.s.entries (c.entry C.P k i).tag = some (c.entry C.P k i)) (ht : n.tags.map (c.entry C.P k i).tag = some d) {plain : Bytes} {x : Draw × Bytes} {idr : Bytes}
    {keys : List NextKey} (hp : parse plain = some ((dataFor x.1 idr x.2).onWire :: keys.map .nextKey)) (u : Draw) {s1 s2 : Sess} {t1 t2 : TagMap}
    (h1 : ({ b.s with entries := entryDel b.s.entries (c.entry C.P k i).tag } : Sess).refill C d (n.tags.remove (c.entry C.P k i).tag) = (s1, t1))
    (h2 : s1.handleKeys C u d 0 (keys.map .nextKey) t1 = (.ok (), s2, t2)) :
    n.decrypt C u (prefixed (Entry.seal C.P (c.entry C.P k i) plain)) =
      (.ok [received idr x], { n with tags := t2, active := n.active.put d { b with s := s2, lastRecv := u.now } }) := by
  have h2' : s1.handleKeys C u d 0 ((dataFor x.1 idr x.2).onWire :: keys.map .nextKey) t1 = (.ok (), s2, t2) := h2
  have hdec : b.s.decrypt C u d (c.entry C.P k i).tag (prefixed (Entry.seal C.P (c.entry C.P k i) plain)) (n.tags.remove (c.entry C.P k i).tag) =
      (.ok ((c.entry C.P k i).setId, (c.entry C.P k i).index, plain), s2, t2) := by
    simp only [Sess.decrypt, he, open_sealed hP, h1, hp, h2']
  have hc : clovesOf ((dataFor x.1 idr x.2).onWire :: keys.map .nextKey) = [received idr x] := by
    have : clovesOf (keys.map Block.nextKey) = [] := by
      simp only [clovesOf, List.filterMap_map, List.filterMap_eq_nil_iff]
      intro y _; rfl
    have e : clovesOf ((dataFor x.1 idr x.2).onWire :: keys.map Block.nextKey) = received idr x :: clovesOf (keys.map Block.nextKey) := rfl
    rw [e, this]
  simp only [Mgr.decrypt, tag_of_sealed, ht, Mgr.decryptTagged, hb, hdec, Mgr.finish, hp]
  rw [blocks_plain d _ _ (by
    intro y hy
    rcases List.mem_cons.mp hy with rfl | hy
    · exact ⟨nofun, nofun⟩
    · obtain ⟨f, hf, rfl⟩ := List.mem_map.mp hy
      exact ⟨nofun, nofun⟩), hc]
  simp only [Bool.false_and, Bool.false_eq_true, if_false]

/-! ## The invariant -/

/-- One direction of a conversation, when no ratchet is under way: `send` and `recv` are the two ends of a tag set, of which `i` entries are used; the next `G` entries and maybe
more are watched for. `cnt` messages went this way. -/
def InStep (C : Cfg) (G : Nat) (send recv : TagSet) (pend : Option NextKey) (es : List Entry) (t : TagMap) (d : Bytes) (i cnt : Nat) : Prop :=
  ∃ c k n st st', send = tset C.P c k i st ∧ recv = tset C.P c k n st' ∧ Paired C.P k st st' ∧ pend = none ∧ i ≤ 20000 ∧ i + G ≤ n ∧ n ≤ 65535 ∧
    Held es t d ((List.range' i (n - i)).map (c.entry C.P k)) ∧ 20001 * k + i ≤ cnt

/-- The same when the sender waits for the answer to its ratchet: `rem` entries of the old set and at least `G` of the new one are watched for; `p` says if the receiver
has an answer to send. -/
def Behind (C : Cfg) (G : Nat) (send recv : TagSet) (pend : Option NextKey) (es : List Entry) (t : TagMap) (d : Bytes) (p : Bool) (rem cnt : Nat) : Prop :=
  ∃ c k i c' n st str f ans, send = tset C.P c k i st ∧ 20000 < i ∧ i + rem ≤ 65535 ∧ recv = tset C.P c' (k + 1) n str ∧ Asked C.P c k st str f ans c' ∧
    Held es t d ((List.range' i rem).map (c.entry C.P k) ++ (List.range' 0 n).map (c'.entry C.P (k + 1))) ∧ G ≤ n ∧ n ≤ 65535 ∧
    pend = (if p then some ans else none) ∧ 20001 * (k + 1) ≤ cnt

theorem InStep.quiet {C : Cfg} {G : Nat} {send : TagSet} {r : Sess} {t : TagMap} {d : Bytes} {i cnt : Nat} (hG : 0 < G) (hG' : G ≤ 40000)
    (h : InStep C G send r.recv r.pendingKey r.entries t d i cnt) (hi : i < 20000) :
    ∃ c k st, send = tset C.P c k i st ∧ (∀ sk, (tset C.P c k (i + 1) st).tryGenerate C.P C.chk sk = (.ok none, tset C.P c k (i + 1) st)) ∧
      entryGet r.entries (c.entry C.P k i).tag = some (c.entry C.P k i) ∧ t.map (c.entry C.P k i).tag = some d ∧
      ∃ s1 t1, ({ r with entries := entryDel r.entries (c.entry C.P k i).tag } : Sess).refill C d (t.remove (c.entry C.P k i).tag) = (s1, t1) ∧ s1.send = r.send ∧
        s1.pendingKey = r.pendingKey ∧ (t1.log.Nodup → InStep C G (tset C.P c k (i + 1) st) s1.recv s1.pendingKey s1.entries t1 d (i + 1) (cnt + 1)) := by
  obtain ⟨c, k, n, st, st', h1, h2, h3, h4, h5, h6, h7, h8, h9⟩ := h
  obtain ⟨m, hm⟩ : ∃ m, n - i = m + 1 := ⟨n - i - 1, by omega⟩
  rw [hm, List.range'_succ, List.map_cons] at h8
  obtain ⟨q, es, t1, e1, e2, e3, e4⟩ := refill_held (C := C) (s := { r with entries := entryDel r.entries (c.entry C.P k i).tag }) h2 h7 h8.take
  refine ⟨c, k, st, h1, fun sk => Paired.quiet _ _ _ _ _ _ _ (by omega), h8.entries _ (by simp), h8.tags _ (by simp), _, _, e1, rfl, rfl, fun hn => ?_⟩
  refine ⟨c, k, n + q, st, st', rfl, rfl, h3, h4, by omega, ?_, e2, ?_, by omega⟩
  · by_cases hlt : n < 65535
    · have := e3 hlt; omega
    · omega
  · have := e4 hn
    rw [← List.map_append, show n = i + 1 + m by omega, List.range'_append_1] at this
    rw [show n + q - (i + 1) = m + q by omega]
    exact this

theorem InStep.asks {C : Cfg} (hP : C.P.Lawful) {G : Nat} {send : TagSet} {r : Sess} {t : TagMap} {d : Bytes} {cnt : Nat} (hG : 0 < G) (hG' : G ≤ 40000) (hR : G ≤ C.T.recv)
    (hR' : C.T.recv ≤ 65535) (h : InStep C G send r.recv r.pendingKey r.entries t d 20000 cnt) (hc : cnt + 1 ≤ 20001 * 65535) (sk : Bytes) (u : Draw) :
    ∃ c k st st2 f, send = tset C.P c k 20000 st ∧ (tset C.P c k (20000 + 1) st).tryGenerate C.P C.chk sk = (.ok (some f), tset C.P c k (20000 + 1) st2) ∧ (Block.nextKey f).Ok ∧
      entryGet r.entries (c.entry C.P k 20000).tag = some (c.entry C.P k 20000) ∧ t.map (c.entry C.P k 20000).tag = some d ∧
      ∃ s1 t1 s2 t2 ans rem, ({ r with entries := entryDel r.entries (c.entry C.P k 20000).tag } : Sess).refill C d (t.remove (c.entry C.P k 20000).tag) = (s1, t1) ∧
        s1.handleKey C u d (u.keys 0) f t1 = (.ok (), s2, t2) ∧ s2.send = r.send ∧ s2.pendingKey = some ans ∧ G ≤ rem ∧
        (t2.log.Nodup → ∀ p, Behind C G (tset C.P c k (20000 + 1) st2) s2.recv (if p then some ans else none) s2.entries t2 d p rem (cnt + 1)) := by
  obtain ⟨c, k, n, st, st', h1, h2, h3, h4, h5, h6, h7, h8, h9⟩ := h
  obtain ⟨m, hm⟩ : ∃ m, n - 20000 = m + 1 := ⟨n - 20000 - 1, by omega⟩
  rw [hm, List.range'_succ, List.map_cons] at h8
  obtain ⟨q, es, t1, e1, e2, e3, e4⟩ := refill_held (C := C) (s := { r with entries := entryDel r.entries (c.entry C.P k 20000).tag }) h2 h7 h8.take
  obtain ⟨st2, f, f1, f2, f3⟩ := h3.ask (by omega) C.chk c (i := 20000 + 1) (by omega) sk
  obtain ⟨str, ans, c', g3, g2⟩ := f3 (u.keys 0)
  have hcan := fun n => (g2 n).1
  have hh := fun n => (g2 n).2
  obtain ⟨q', es', t2, ex, r1, r2, r3⟩ := ratchet_held (C := C) (s := { r with recv := tset C.P c k (n + q) st', entries := es }) (t := t1) (d := d)
    (L := (List.range' (20000 + 1) m).map (c.entry C.P k) ++ (List.range' n q).map (c.entry C.P k)) rfl e2 hR' u (u.keys 0) f2 hcan hh
  refine ⟨c, k, st, st2, f, h1, f1, (g3.ok hP).1, h8.entries _ (by simp), h8.tags _ (by simp), _, _, _, _, ans, m + q + q', e1, r1, rfl, rfl, ?_, fun hn p => ?_⟩
  · by_cases hlt : n < 65535
    · have := e3 hlt; omega
    · omega
  · refine ⟨c, k, 20000 + 1, c', C.T.recv, st2, str, f, ans, rfl, by omega, by omega, rfl, g3, ?_, hR, hR', rfl, by omega⟩
    have hg := grows_handleKey C u d (u.keys 0) f { r with recv := tset C.P c k (n + q) st', entries := es } t1
    rw [r1] at hg
    have := r3 (e4 (nodup_of_grows hg hn)) hn
    rw [← List.map_append, ← List.map_append, show n = 20000 + 1 + m by omega, List.range'_append_1, show 20000 + 1 + m + q = 20000 + 1 + (m + q) by omega, List.range'_append_1] at this
    exact this

theorem Behind.again {C : Cfg} (hP : C.P.Lawful) {G : Nat} {send : TagSet} {r : Sess} {pend : Option NextKey} {t : TagMap} {d : Bytes} {p : Bool} {rem cnt : Nat}
    (h : Behind C G send r.recv pend r.entries t d p (rem + 1) cnt) (sk : Bytes) (u : Draw) :
    ∃ c k i st f, send = tset C.P c k i st ∧ i < 65535 ∧ (tset C.P c k (i + 1) st).tryGenerate C.P C.chk sk = (.ok (some f), tset C.P c k (i + 1) st) ∧ (Block.nextKey f).Ok ∧
      entryGet r.entries (c.entry C.P k i).tag = some (c.entry C.P k i) ∧ t.map (c.entry C.P k i).tag = some d ∧
      ∃ s1 t1 s2, ({ r with entries := entryDel r.entries (c.entry C.P k i).tag } : Sess).refill C d (t.remove (c.entry C.P k i).tag) = (s1, t1) ∧
        s1.handleKey C u d (u.keys 0) f t1 = (.ok (), s2, t1) ∧ s2.send = r.send ∧
        (t1.log.Nodup → Behind C G (tset C.P c k (i + 1) st) s2.recv s2.pendingKey s2.entries t1 d true rem (cnt + 1)) := by
  obtain ⟨c, k, i, c', n, st, str, f, ans, h1, h2, h3, h4, h5, h6, h7, h8, h9, h10⟩ := h
  rw [List.range'_succ, List.map_cons, List.cons_append] at h6
  obtain ⟨q, es, t1, e1, e2, e3, e4⟩ := refill_held (C := C) (s := { r with entries := entryDel r.entries (c.entry C.P k i).tag }) h4 h8 h6.take
  obtain ⟨f1, f2⟩ := h5.again C.chk (i := i + 1) (by omega) sk
  obtain ⟨g1, g2⟩ := f2 (n + q) (u.keys 0)
  have hf : ∃ x y z, f = .forward x y z := by cases h5 <;> exact ⟨_, _, _, rfl⟩
  refine ⟨c, k, i, st, f, h1, by omega, f1, (h5.ok hP).1, h6.entries _ (by simp), h6.tags _ (by simp), _, _, _, e1, again_held rfl u (u.keys 0) hf g1 g2, rfl, fun hn => ?_⟩
  refine ⟨c, k, i + 1, c', n + q, st, str, f, ans, rfl, by omega, by omega, rfl, h5, ?_, by omega, e2, rfl, by omega⟩
  have := e4 hn
  have e : List.range' n q = List.range' (0 + n) q := by rw [Nat.zero_add]
  rw [List.append_assoc, ← List.map_append, e, List.range'_append_1] at this
  exact this

theorem Behind.answered {C : Cfg} (hP : C.P.Lawful) {G : Nat} {send recv : TagSet} {pend : Option NextKey} {es : List Entry} {t : TagMap} {d : Bytes} {rem cnt : Nat}
    (h : Behind C G send recv pend es t d true rem cnt) : ∃ ans, pend = some ans ∧ (Block.nextKey ans).Ok ∧ ∀ sk, ∃ send',
      (∀ (s : Sess) (v : Draw) (d' : Bytes) (t' : TagMap), s.send = send → s.handleKey C v d' sk ans t' = (.ok (), { s with send := send', pendingKey := none }, t')) ∧
      InStep C G send' recv none es t d 0 cnt := by
  obtain ⟨c, k, i, c', n, st, str, f, ans, h1, h2, h3, h4, h5, h6, h7, h8, h9, h10⟩ := h
  refine ⟨ans, h9, (h5.ok hP).2, fun sk => ?_⟩
  obtain ⟨a1, st3, a2, a3⟩ := h5.answered hP C.chk i sk
  refine ⟨tset C.P c' (k + 1) 0 st3, fun s v d' t' hs => answer_key (hs.trans h1) v sk a1 a2, c', k + 1, n, st3, str, rfl, h4, a3, rfl, by omega, by omega, h8, ?_, by omega⟩
  rw [Nat.sub_zero]
  exact h6.drop (List.sublist_append_right _ _)

/-- Both directions of a conversation of `S` and `R`; `last` says that `S` spoke last, `run` times in a row. A side whose answer to a ratchet was dropped, because an answer to its
own ratchet came in the same message, has just begun a tag set. -/
def Inv (C : Cfg) (G : Nat) (ids idr : Bytes) (S R : Mgr) (last : Bool) (run cS cR : Nat) : Prop :=
  ∃ a b, S.active.get idr = some a ∧ R.active.get ids = some b ∧ a.inAcks = [] ∧ a.leaseSet = none ∧ b.inAcks = [] ∧ b.leaseSet = none ∧
   ((∃ i j, InStep C G a.s.send b.s.recv b.s.pendingKey b.s.entries R.tags ids i cS ∧ InStep C G b.s.send a.s.recv a.s.pendingKey a.s.entries S.tags idr j cR) ∨
    (∃ rem j, Behind C G a.s.send b.s.recv b.s.pendingKey b.s.entries R.tags ids true rem cS ∧ last = true ∧ G ≤ rem + run ∧
      InStep C G b.s.send a.s.recv a.s.pendingKey a.s.entries S.tags idr j cR) ∨
    (∃ rem j, Behind C G a.s.send b.s.recv b.s.pendingKey b.s.entries R.tags ids false rem cS ∧ G ≤ rem ∧ j ≤ (if last then 0 else run) ∧
      InStep C G b.s.send a.s.recv a.s.pendingKey a.s.entries S.tags idr j cR) ∨
    (∃ rem i, Behind C G b.s.send a.s.recv a.s.pendingKey a.s.entries S.tags idr true rem cR ∧ last = false ∧ G ≤ rem + run ∧
      InStep C G a.s.send b.s.recv b.s.pendingKey b.s.entries R.tags ids i cS) ∨
    (∃ rem i, Behind C G b.s.send a.s.recv a.s.pendingKey a.s.entries S.tags idr false rem cR ∧ G ≤ rem ∧ i ≤ (if last then run else 0) ∧
      InStep C G a.s.send b.s.recv b.s.pendingKey b.s.entries R.tags ids i cS))

theorem Inv.swap {C : Cfg} {G : Nat} {ids idr : Bytes} {S R : Mgr} {last : Bool} {run cS cR : Nat} (h : Inv C G ids idr S R last run cS cR) :
    Inv C G idr ids R S (!last) run cR cS := by
  obtain ⟨a, b, h1, h2, h3, h4, h5, h6, h⟩ := h
  refine ⟨b, a, h2, h1, h5, h6, h3, h4, ?_⟩
  rcases h with ⟨i, j, x, y⟩ | ⟨rem, j, x, l, g, y⟩ | ⟨rem, j, x, g, l, y⟩ | ⟨rem, j, x, l, g, y⟩ | ⟨rem, j, x, g, l, y⟩
  · exact .inl ⟨j, i, y, x⟩
  · exact .inr (.inr (.inr (.inl ⟨rem, j, x, by rw [l]; rfl, g, y⟩)))
  · exact .inr (.inr (.inr (.inr ⟨rem, j, x, g, by cases last <;> exact l, y⟩)))
  · exact .inr (.inl ⟨rem, j, x, by rw [l]; rfl, g, y⟩)
  · exact .inr (.inr (.inl ⟨rem, j, x, g, by cases last <;> exact l, y⟩))

/-- What a turn comes to, from what the sender's and the receiver's sessions come to. -/
theorem speak_eq {C : Cfg} (hP : C.P.Lawful) {ids idr : Bytes} {S R : Mgr} {a b : Active} (ha : S.active.get idr = some a) (hb : R.active.get ids = some b)
    (hA : a.inAcks = []) (hL : a.leaseSet = none) {t : Turn} (hx : Fits idr (t.v, t.msg)) {c : Chain} {k i : Nat} {st st2 : KeyState} {fo : Option NextKey}
    (hs : a.s.send = tset C.P c k i st) (hi : i < 65535) (hg : (tset C.P c k (i + 1) st).tryGenerate C.P C.chk (t.v.keys 0) = (.ok fo, tset C.P c k (i + 1) st2))
    (hok : ∀ f ∈ fo.toList ++ a.s.pendingKey.toList, (Block.nextKey f).Ok) (he : entryGet b.s.entries (c.entry C.P k i).tag = some (c.entry C.P k i))
    (ht : R.tags.map (c.entry C.P k i).tag = some ids) {s1 s2 : Sess} {t1 t2 : TagMap}
    (h1 : ({ b.s with entries := entryDel b.s.entries (c.entry C.P k i).tag } : Sess).refill C ids (R.tags.remove (c.entry C.P k i).tag) = (s1, t1))
    (h2 : s1.handleKeys C t.u ids 0 ((fo.toList ++ a.s.pendingKey.toList).map .nextKey) t1 = (.ok (), s2, t2)) :
    speak C S R idr t = (.ok [received idr (t.v, t.msg)],
      { S with active := S.active.put idr { a with s := { a.s with send := tset C.P c k (i + 1) st2, pendingKey := none } } },
      { R with tags := t2, active := R.active.put ids { b with s := s2, lastRecv := t.u.now } }) := by
  obtain ⟨plain, p1, p2⟩ := encrypt_out ha hA hL hs hi t.v t.msg hg hx hok
  simp only [speak, p2]
  rw [decrypt_in (x := (t.v, t.msg)) hP hb he ht p1 t.u h1 h2]

theorem Inv.turn {C : Cfg} (hP : C.P.Lawful) {G b' : Nat} (hb0 : b' ≤ G) (hb1 : b' ≤ 20000) (hG' : G ≤ 40000) (hR : G ≤ C.T.recv) (hR' : C.T.recv ≤ 65535) {ids idr : Bytes} {S R : Mgr}
    {last : Bool} {run cS cR : Nat} (h : Inv C G ids idr S R last run cS cR) {t : Turn} (hx : Fits idr (t.v, t.msg)) (hrun : (if last then run + 1 else 1) ≤ b')
    (hc : cS + 1 ≤ 20001 * 65535) (hn : (speak C S R idr t).2.2.tags.log.Nodup) :
    (speak C S R idr t).1 = .ok [received idr (t.v, t.msg)] ∧
      Inv C G ids idr (speak C S R idr t).2.1 (speak C S R idr t).2.2 true (if last then run + 1 else 1) (cS + 1) cR := by
  have hr1 : 1 ≤ (if last then run + 1 else 1) := by split <;> omega
  have hG : 0 < G := by omega
  obtain ⟨a, b, ha, hb, h3, h4, h5, h6, h⟩ := h
  rcases h with ⟨i, j, x, y⟩ | ⟨rem, j, x, l, g, y⟩ | ⟨rem, j, x, g, l, y⟩ | ⟨rem, i, x, l, g, y⟩ | ⟨rem, i, x, g, l, y⟩
  · have hp : a.s.pendingKey = none := by obtain ⟨_, _, _, _, _, _, _, _, h, _⟩ := y; exact h
    have hi : i ≤ 20000 := by obtain ⟨_, _, _, _, _, _, _, _, _, h, _⟩ := x; exact h
    by_cases hlt : i < 20000
    · obtain ⟨c, k, st, x1, x2, x3, x4, s1, t1, x5, x6, x7, x8⟩ := x.quiet hG hG' hlt
      have e := speak_eq hP ha hb h3 h4 (t := t) hx x1 (by omega) (x2 _) (by simp [hp]) x3 x4 x5 (s2 := s1) (t2 := t1) (by simp [hp, Sess.handleKeys])
      rw [e] at hn ⊢
      refine ⟨rfl, _, _, Assoc.get_put .., Assoc.get_put .., h3, h4, h5, h6, .inl ⟨i + 1, j, x8 hn, ?_⟩⟩
      rw [hp] at y
      show InStep C G s1.send a.s.recv none a.s.entries S.tags idr j cR
      rw [x6]; exact y
    · have : i = 20000 := by omega
      subst this
      obtain ⟨c, k, st, st2, f, x1, x2, x3, x4, x5, s1, t1, s2, t2, ans, rem, x6, x7, x8, x9, x10, x11⟩ := x.asks hP hG hG' hR hR' hc (t.v.keys 0) t.u
      have e := speak_eq hP ha hb h3 h4 (t := t) hx x1 (by omega) x2 (by simpa [hp] using x3) x4 x5 x6 (s2 := s2) (t2 := t2) (by simp [hp, Sess.handleKeys, x7])
      rw [e] at hn ⊢
      refine ⟨rfl, _, _, Assoc.get_put .., Assoc.get_put .., h3, h4, h5, h6, .inr (.inl ⟨rem, j, ?_, rfl, by omega, ?_⟩)⟩
      · show Behind C G _ s2.recv s2.pendingKey s2.entries t2 ids true rem (cS + 1)
        rw [x9]; exact x11 hn true
      · rw [hp] at y
        show InStep C G s2.send a.s.recv none a.s.entries S.tags idr j cR
        rw [x8]; exact y
  · have hp : a.s.pendingKey = none := by obtain ⟨_, _, _, _, _, _, _, _, h, _⟩ := y; exact h
    subst l
    simp only [if_true] at hrun hr1 ⊢
    obtain ⟨rem, rfl⟩ : ∃ m, rem = m + 1 := ⟨rem - 1, by omega⟩
    obtain ⟨c, k, i, st, f, x1, x2, x3, x4, x5, x6, s1, t1, s2, x7, x8, x9, x10⟩ := x.again hP (t.v.keys 0) t.u
    have e := speak_eq hP ha hb h3 h4 (t := t) hx x1 x2 x3 (by simpa [hp] using x4) x5 x6 x7 (s2 := s2) (t2 := t1) (by simp [hp, Sess.handleKeys, x8])
    rw [e] at hn ⊢
    refine ⟨rfl, _, _, Assoc.get_put .., Assoc.get_put .., h3, h4, h5, h6, .inr (.inl ⟨rem, j, x10 hn, rfl, by omega, ?_⟩)⟩
    rw [hp] at y
    show InStep C G s2.send a.s.recv none a.s.entries S.tags idr j cR
    rw [x9]; exact y
  · have hp : a.s.pendingKey = none := by obtain ⟨_, _, _, _, _, _, _, _, h, _⟩ := y; exact h
    obtain ⟨rem, rfl⟩ : ∃ m, rem = m + 1 := ⟨rem - 1, by omega⟩
    obtain ⟨c, k, i, st, f, x1, x2, x3, x4, x5, x6, s1, t1, s2, x7, x8, x9, x10⟩ := x.again hP (t.v.keys 0) t.u
    have e := speak_eq hP ha hb h3 h4 (t := t) hx x1 x2 x3 (by simpa [hp] using x4) x5 x6 x7 (s2 := s2) (t2 := t1) (by simp [hp, Sess.handleKeys, x8])
    rw [e] at hn ⊢
    refine ⟨rfl, _, _, Assoc.get_put .., Assoc.get_put .., h3, h4, h5, h6, .inr (.inl ⟨rem, j, x10 hn, rfl, by omega, ?_⟩)⟩
    rw [hp] at y
    show InStep C G s2.send a.s.recv none a.s.entries S.tags idr j cR
    rw [x9]; exact y
  · obtain ⟨ans, hp, hok, hans⟩ := x.answered hP
    have hi : i ≤ 20000 := by obtain ⟨_, _, _, _, _, _, _, _, _, h, _⟩ := y; exact h
    have hpr : b.s.pendingKey = none := by obtain ⟨_, _, _, _, _, _, _, _, h, _⟩ := y; exact h
    subst l
    simp only [Bool.false_eq_true, if_false] at hrun ⊢
    by_cases hlt : i < 20000
    · obtain ⟨c, k, st, x1, x2, x3, x4, s1, t1, x5, x6, x7, x8⟩ := y.quiet hG hG' hlt
      obtain ⟨send', a1, a2⟩ := hans (t.u.keys 0)
      have e := speak_eq hP ha hb h3 h4 (t := t) hx x1 (by omega) (x2 _) (by simpa [hp] using hok) x3 x4 x5 (s2 := { s1 with send := send', pendingKey := none }) (t2 := t1)
        (by simp [hp, Sess.handleKeys, a1 s1 t.u ids t1 x6])
      rw [e] at hn ⊢
      refine ⟨rfl, _, _, Assoc.get_put .., Assoc.get_put .., h3, h4, h5, h6, .inl ⟨i + 1, 0, ?_, a2⟩⟩
      have := x8 hn
      rw [x7, hpr] at this
      exact this
    · have : i = 20000 := by omega
      subst this
      obtain ⟨c, k, st, st2, f, x1, x2, x3, x4, x5, s1, t1, s2, t2, ans', rem', x6, x7, x8, x9, x10, x11⟩ := y.asks hP hG hG' hR hR' hc (t.v.keys 0) t.u
      obtain ⟨send', a1, a2⟩ := hans (t.u.keys 1)
      have e := speak_eq hP ha hb h3 h4 (t := t) hx x1 (by omega) x2 (by
          intro z hz
          simp only [hp, Option.toList_some, List.mem_append, List.mem_singleton] at hz
          rcases hz with rfl | rfl
          · exact x3
          · exact hok) x4 x5 x6 (s2 := { s2 with send := send', pendingKey := none }) (t2 := t2)
        (by simp [hp, Sess.handleKeys, x7, a1 s2 t.u ids t2 x8])
      rw [e] at hn ⊢
      exact ⟨rfl, _, _, Assoc.get_put .., Assoc.get_put .., h3, h4, h5, h6, .inr (.inr (.inl ⟨rem', 0, x11 hn false, x10, by simp, a2⟩))⟩
  · have hp : a.s.pendingKey = none := by obtain ⟨_, _, _, _, _, _, _, _, _, _, _, _, _, _, _, _, _, h, _⟩ := x; exact h
    have hlt : i + 1 ≤ (if last then run + 1 else 1) := by
      cases last <;> simp_all
    obtain ⟨c, k, st, x1, x2, x3, x4, s1, t1, x5, x6, x7, x8⟩ := y.quiet hG hG' (by omega)
    have e := speak_eq hP ha hb h3 h4 (t := t) hx x1 (by omega) (x2 _) (by simp [hp]) x3 x4 x5 (s2 := s1) (t2 := t1) (by simp [hp, Sess.handleKeys])
    rw [e] at hn ⊢
    refine ⟨rfl, _, _, Assoc.get_put .., Assoc.get_put .., h3, h4, h5, h6, .inr (.inr (.inr (.inr ⟨rem, i + 1, ?_, g, hlt, x8 hn⟩)))⟩
    rw [hp] at x
    show Behind C G s1.send a.s.recv none a.s.entries S.tags idr false rem cR
    rw [x6]; exact x

/-! ## C271: a session goes on over any number of ratchets -/

/-- Every tag of the map was inserted at some time. -/
def TagMap.Sound (t : TagMap) : Prop := ∀ x, t.map x ≠ none → x ∈ t.log

theorem TagMap.Sound.grows {t t' : TagMap} (h : TagMap.Sound t) (hg : Grows t t') : TagMap.Sound t' := by
  obtain ⟨new, e, h1⟩ := hg
  intro x hx
  rw [e, List.mem_append]
  rcases h1 x hx with h2 | h2
  · exact .inl (h x h2)
  · exact .inr h2

/-- One direction of a session in which no ratchet was made: `s` sends to `r` with the `i`-th entry of the chain next, which `r` watches for together with at least `G - 1` that follow. -/
def Direction (C : Cfg) (G : Nat) (s r : Mgr) (ids idr : Bytes) (c : Chain) (i : Nat) : Prop :=
  ∃ a b w, Sending C s idr c 0 i a ∧ a.inAcks = [] ∧ a.leaseSet = none ∧ a.s.send.state = .uninit ∧ r.active.get ids = some b ∧ b.s.recv.state = .uninit ∧
    Watching C r ids c 0 w ∧ i ≤ 20000 ∧ i + G ≤ w.n ∧ ∀ l, i ≤ l → l < w.n → w.readable l

/-- The turns of one side. -/
def said (mine : Bool) (ts : List Turn) : Nat := (ts.filter (·.mine = mine)).length

theorem Direction.inStep {C : Cfg} {G : Nat} {s r : Mgr} {ids idr : Bytes} {c : Chain} {i : Nat} (h : Direction C G s r ids idr c i) (hd : Distinct C.P c) (hk : TagMap.Sound r.tags) :
    ∃ a b, s.active.get idr = some a ∧ r.active.get ids = some b ∧ a.inAcks = [] ∧ a.leaseSet = none ∧ a.s.pendingKey = none ∧
      (b.s.pendingKey = none → InStep C G a.s.send b.s.recv b.s.pendingKey b.s.entries r.tags ids i i) := by
  obtain ⟨a, b, w, ⟨h1, h2, h3, h4, h5⟩, h6, h7, h8, h9, h10, hw, h11, h12, h13⟩ := h
  obtain ⟨b', hb', w1, w2, w3, w4⟩ := hw.sess
  rw [h9] at hb'
  cases hb'
  refine ⟨a, b, h1, h9, h6, h7, h5, fun hp => ?_⟩
  refine ⟨c, 0, w.n, .uninit, .uninit, ?_, ?_, .fresh, hp, h11, h12, hw.le, ?_, by omega⟩
  · cases hs : a.s.send
    simp only [hs] at h2 h3 h4 h8
    simp only [tset, h2, h3, h4, h8]
  · cases hs : b.s.recv
    simp only [hs] at w1 w2 w3 h10
    simp only [tset, w1, w2, w3, h10]
  · have hr : ∀ e ∈ (List.range' i (w.n - i)).map (c.entry C.P 0), ∃ l, l < 65535 ∧ w.readable l ∧ e = c.entry C.P 0 l := by
      intro e he
      obtain ⟨l, hl, rfl⟩ := List.mem_map.mp he
      simp only [List.mem_range'_1] at hl
      have := hw.le
      exact ⟨l, by omega, h13 l hl.1 (by omega), rfl⟩
    have ht : ∀ e ∈ (List.range' i (w.n - i)).map (c.entry C.P 0), r.tags.map e.tag = some ids := by
      intro e he
      obtain ⟨l, l1, l2, rfl⟩ := hr e he
      rw [hw.tags l l1, if_pos l2]
    refine ⟨fun e he => ?_, ht, fun e he => ?_, ?_⟩
    · obtain ⟨l, l1, l2, rfl⟩ := hr e he
      rw [w4 l l1, if_pos l2]
    · refine hk _ ?_
      rw [ht e he]; exact nofun
    · rw [List.map_map]
      refine List.pairwise_map.mpr (List.Pairwise.imp_of_mem (fun {x y} hx hy hne e => hne ?_) (List.nodup_range' (s := i) (n := w.n - i) (step := 1)))
      simp only [List.mem_range'_1] at hx hy
      have := hw.le
      exact hd x (by omega) y (by omega) e

theorem grows_speak (C : Cfg) (s r : Mgr) (idr : Bytes) (t : Turn) : Grows s.tags (speak C s r idr t).2.1.tags ∧ Grows r.tags (speak C s r idr t).2.2.tags := by
  have h := grows_encrypt C t.v s idr t.msg
  simp only [speak]
  split
  · rename_i h1; rw [h1] at h; exact ⟨h, grows_decrypt ..⟩
  · rename_i h1; rw [h1] at h; exact ⟨h, .refl _⟩
  · rename_i h1; rw [h1] at h; exact ⟨h, .refl _⟩

theorem grows_converse (C : Cfg) (idm idn : Bytes) (ts : List Turn) : ∀ m n : Mgr,
    Grows m.tags (converse C idm idn m n ts).2.1.tags ∧ Grows n.tags (converse C idm idn m n ts).2.2.tags := by
  induction ts with
  | nil => intro m n; exact ⟨.refl _, .refl _⟩
  | cons t ts ih =>
    intro m n
    simp only [converse]
    split
    · exact ⟨(grows_speak C m n idn t).1.trans (ih _ _).1, (grows_speak C m n idn t).2.trans (ih _ _).2⟩
    · exact ⟨(grows_speak C n m idm t).2.trans (ih _ _).1, (grows_speak C n m idm t).1.trans (ih _ _).2⟩

theorem grows_sendOuts (C : Cfg) (d : Bytes) (l : List (Draw × Bytes)) : ∀ {m m' : Mgr} {outs : List Bytes}, sendOuts C d m l = some (outs, m') → Grows m.tags m'.tags := by
  induction l with
  | nil => intro m m' outs h; simp only [sendOuts, Option.some.injEq, Prod.mk.injEq] at h; rw [h.2]; exact .refl _
  | cons x l ih =>
    intro m m' outs h
    have hg := grows_encrypt C x.1 m d x.2
    simp only [sendOuts] at h
    split at h
    · rename_i out m1 h1
      rw [h1] at hg
      cases hr : sendOuts C d m1 l with
      | none => rw [hr] at h; cases h
      | some r =>
        rw [hr] at h
        simp only [Option.map_some, Option.some.injEq, Prod.mk.injEq] at h
        rw [← h.2]
        exact hg.trans (ih hr)
    · cases h

theorem Inv.converse {C : Cfg} (hP : C.P.Lawful) {G b : Nat} (hb0 : b ≤ G) (hb1 : b ≤ 20000) (hG' : G ≤ 40000) (hR : G ≤ C.T.recv) (hR' : C.T.recv ≤ 65535) {idm idn : Bytes} (ts : List Turn) :
    ∀ {m n : Mgr} {last : Bool} {run cM cN : Nat}, Inv C G idm idn m n last run cM cN → Polite b last run ts → (∀ t ∈ ts, Fits (if t.mine then idn else idm) (t.v, t.msg)) →
      cM + said true ts ≤ 20001 * 65535 → cN + said false ts ≤ 20001 * 65535 → (Ecies.converse C idm idn m n ts).2.1.tags.log.Nodup → (Ecies.converse C idm idn m n ts).2.2.tags.log.Nodup →
      (Ecies.converse C idm idn m n ts).1 = ts.map fun t => .ok [received (if t.mine then idn else idm) (t.v, t.msg)] := by
  induction ts with
  | nil => intros; rfl
  | cons t ts ih =>
    intro m n last run cM cN h hp hf h1 h2 n1 n2
    have hft := hf t List.mem_cons_self
    obtain ⟨hr, hp⟩ := hp
    cases hm : t.mine with
    | true =>
      simp only [hm, if_true] at hft hp hr
      have s1 : said true (t :: ts) = said true ts + 1 := by simp [said, hm]
      have s2 : said false (t :: ts) = said false ts := by simp [said, hm]
      simp only [Ecies.converse, hm, if_true] at n1 n2 ⊢
      have hrun : (if true = last then run + 1 else 1) = (if last then run + 1 else 1) := by cases last <;> rfl
      rw [hrun] at hr hp
      obtain ⟨e, h'⟩ := h.turn hP hb0 hb1 hG' hR hR' hft hr (by omega) (nodup_of_grows (grows_converse ..).2 n2)
      rw [e, List.map_cons, hm, ih h' hp (fun t ht => hf t (List.mem_cons_of_mem _ ht)) (by omega) (by omega) n1 n2]
      rfl
    | false =>
      simp only [hm, Bool.false_eq_true, if_false] at hft hp hr
      have s1 : said true (t :: ts) = said true ts := by simp [said, hm]
      have s2 : said false (t :: ts) = said false ts + 1 := by simp [said, hm]
      simp only [Ecies.converse, hm, Bool.false_eq_true, if_false] at n1 n2 ⊢
      have hrun : (if false = last then run + 1 else 1) = (if !last then run + 1 else 1) := by cases last <;> rfl
      rw [hrun] at hr hp
      obtain ⟨e, h'⟩ := h.swap.turn hP hb0 hb1 hG' hR hR' hft hr (by omega) (nodup_of_grows (grows_converse ..).1 n1)
      rw [e, List.map_cons, hm, ih h'.swap hp (fun t ht => hf t (List.mem_cons_of_mem _ ht)) (by omega) (by omega) n1 n2]
      rfl

/-- C271 in part: two destinations with a session that is open in both directions talk for as long as 65535 tag sets each way allow, whoever speaks and whatever the keys are. If nobody speaks more often in
a row than the number of entries that are watched for ahead, every message is sent and is read as what was sent, on both sides, over all the ratchets that become due, also when both sides ratchet at once.
(That no tag comes up twice is assumed. Messages arrive in the order in which they were sent; no lease set becomes due; time does not pass between messages.) -/
theorem C271_ratchets_partial {C : Cfg} (hP : C.P.Lawful) {b : Nat} (hb : b ≤ 20000) (hR : b ≤ C.T.recv) (hR' : C.T.recv ≤ 65535) {idm idn : Bytes} {m n : Mgr}
    {c c' : Chain} {i j : Nat} (h1 : Direction C b m n idm idn c i) (h2 : Direction C b n m idn idm c' j) (hd : Distinct C.P c ∧ Distinct C.P c')
    (hk : TagMap.Sound m.tags ∧ TagMap.Sound n.tags) (ts : List Turn) (hp : Polite b true 0 ts) (hf : ∀ t ∈ ts, Fits (if t.mine then idn else idm) (t.v, t.msg))
    (hc : i + said true ts ≤ 20001 * 65535 ∧ j + said false ts ≤ 20001 * 65535)
    (hn : (converse C idm idn m n ts).2.1.tags.log.Nodup ∧ (converse C idm idn m n ts).2.2.tags.log.Nodup) :
    (converse C idm idn m n ts).1 = ts.map fun t => .ok [received (if t.mine then idn else idm) (t.v, t.msg)] := by
  obtain ⟨a, b', e1, e2, e3, e4, e5, e6⟩ := h1.inStep hd.1 hk.2
  obtain ⟨b'', a', f1, f2, f3, f4, f5, f6⟩ := h2.inStep hd.2 hk.1
  rw [e2] at f1
  rw [e1] at f2
  cases f1
  cases f2
  exact Inv.converse hP (Nat.le_refl b) hb (by omega) hR hR' ts ⟨a, b', e1, e2, e3, e4, f3, f4, .inl ⟨i, j, e6 f5, f6 e5⟩⟩ hp hf hc.1 hc.2 hn.1 hn.2

/-- C271 from the beginning: two destinations that know nothing of each other open a session as in `C119_established_partial`; then they talk as in `C271_ratchets_partial`, where nobody speaks more often
in a row than the number of entries that are generated ahead, less one. -/
theorem C271_strangers_partial {C : Cfg} (hP : C.P.Lawful) (hN : C.T.nsr ≤ 65535) (hT : C.T.recv ≤ 65535) (hT0 : 0 < C.T.recv) {s : Ends} {m n : Mgr}
    (h : Strangers C s m n) (hs : TagMap.Sound m.tags ∧ TagMap.Sound n.tags)
    {xs ys : List (Draw × Bytes)} (hxs : ∀ x ∈ xs, Sendable x.1 s.own s.remote s.leaseSet x.2 ∧ Encodable C.P C.E x.1.esk)
    (hys : ∀ y ∈ ys, Fits s.own y ∧ Encodable C.P C.E y.1.esk) (hyl : ys.length ≤ 65535) {q j : Nat} {x y z : Draw × Bytes} (hq : xs[q]? = some x)
    (hj : ys[j]? = some y) (hjn : j < C.T.nsr) (hz : Fits s.remote z)
    (hu : n.tags.map (unle ((C.E.encode x.1.esk).take 8)) = none)
    (hm : Apart C.P (xs.map (s.replyChain C) ++ [s.back C x j y]) ∧ Unused C.P m [s.back C x j y])
    (hn : Apart C.P (ys.mapIdx (s.there C x)) ∧ Unused C.P n (ys.mapIdx (s.there C x))) (v1 v2 v3 : Draw) {b : Nat} (hb : b ≤ 20000) (hb' : b + 1 ≤ C.T.recv) :
    ∃ outs m1, sendOuts C s.remote m xs = some (outs, m1) ∧
    ∃ request n1, outs[q]? = some request ∧ n.decrypt C v1 request = (.ok (requestCloves x.1 s.own s.remote s.leaseSet x.2), n1) ∧
    ∃ replies n2, sendOuts C s.own n1 ys = some (replies, n2) ∧
    ∃ reply m2, replies[j]? = some reply ∧ m1.decrypt C v2 reply = (.ok [received s.own y], m2) ∧
    ∃ first m3, m2.encrypt C z.1 s.remote z.2 = (.ok first, m3) ∧
    ∃ n3, n2.decrypt C v3 first = (.ok [received s.remote z], n3) ∧
    ∀ ts, Polite b true 0 ts → (∀ t ∈ ts, Fits (if t.mine then s.remote else s.own) (t.v, t.msg)) → 1 + said true ts ≤ 20001 * 65535 → said false ts ≤ 20001 * 65535 →
      (converse C s.own s.remote m3 n3 ts).2.1.tags.log.Nodup → (converse C s.own s.remote m3 n3 ts).2.2.tags.log.Nodup →
      (converse C s.own s.remote m3 n3 ts).1 = ts.map fun t => .ok [received (if t.mine then s.remote else s.own) (t.v, t.msg)] := by
  obtain ⟨outs, m1, e1, request, n1, e2, e3, replies, n2, e4, reply, m2, e5, e6, first, m3, e7, n3, e8, a3, b3, k1, k2, k3, k4, k5, k6, k7, k8, k9, k10, _⟩ :=
    C119_established_partial hP hN hT hT0 h hxs hys hyl hq hj hjn hz hu hm hn v1 v2 v3
  refine ⟨outs, m1, e1, request, n1, e2, e3, replies, n2, e4, reply, m2, e5, e6, first, m3, e7, n3, e8, fun ts p1 p2 p3 p4 p5 p6 => ?_⟩
  have hmem : s.there C x j y ∈ ys.mapIdx (s.there C x) := List.mem_of_getElem? (i := j) (by rw [List.getElem?_mapIdx, hj]; rfl)
  have g1 := grows_sendOuts C s.remote xs e1
  have g2 := grows_decrypt C v1 n request
  rw [e3] at g2
  have g3 := grows_sendOuts C s.own ys e4
  have g4 := grows_decrypt C v2 m1 reply
  rw [e6] at g4
  have g5 := grows_encrypt C z.1 m2 s.remote z.2
  rw [e7] at g5
  have g6 := grows_decrypt C v3 n2 first
  rw [e8] at g6
  refine C271_ratchets_partial hP hb (by omega) hT (c := s.there C x j y) (c' := s.back C x j y) (i := 1) (j := 0) ⟨a3, b3, _, k1, k5, k6, k9.1, k3.1, k10.2, k2, by omega, ?_, ?_⟩
    ⟨b3, a3, _, k3, k7, k8, k10.1, k1.1, k9.2, k4, by omega, ?_, ?_⟩ ⟨hn.1.1 _ hmem, hm.1.1 _ (by simp)⟩ ⟨((hs.1.grows g1).grows g4).grows g5, ((hs.2.grows g2).grows g3).grows g6⟩ ts p1 p2 ⟨p3, by omega⟩ ⟨p5, p6⟩
  · show 1 + b ≤ C.T.recv; omega
  · intro l h1 h2
    exact ⟨h2, by simp; omega⟩
  · show 0 + b ≤ C.T.recv; omega
  · intro l h1 h2
    exact ⟨h2, by simp⟩

/-! ### The hypotheses can be met -/

/-- A chain of the toy with counters for its tags and keys, after `i` entries. -/
def lateAt (i : Nat) : Chain := { nextRoot := le 8 1000000000, tagData := le 8 (100 + 2 * i), tagConst := le 8 0, symKey := le 8 (7 + 2 * i) }

theorem lblSymmetric_len : lblSymmetric.length = 16 := by decide +kernel

theorem late_from : From (lateAt 0) 100 := by decide +kernel

theorem late_iter : ∀ i, i < 65536 → (lateAt 0).iter spreadPrims i = lateAt i
  | 0, _ => rfl
  | i + 1, hi => by
    have hl : ∀ n, (le 8 n).length = 8 := fun n => by simp [le]
    rw [Chain.iter, late_iter i (by omega)]
    simp only [Chain.step, lateAt]
    rw [spread_hmac (100 + 2 * i) (by omega) _ (by rw [hl]; omega), spread_hmac _ (by omega) _ (by rw [List.length_append, lblTagGen_len]; simp),
      spread_hmac (7 + 2 * i) (by omega) _ (by simp), spread_hmac _ (by omega) _ (by rw [List.length_append, lblSymmetric_len]; simp)]
    rw [show 100 + 2 * i + 1 + 1 = 100 + 2 * (i + 1) by omega, show 7 + 2 * i + 1 + 1 = 7 + 2 * (i + 1) by omega]

/-- The `i`-th entry of the chain, computed from the counters. -/
def lateEntry (i : Nat) : Entry := { key := ((lateAt i).step spreadPrims).1.1, tag := ((lateAt i).step spreadPrims).1.2, index := i, setId := 0 }

theorem late_entry {i : Nat} (h : i < 65536) : (lateAt 0).entry spreadPrims 0 i = lateEntry i := by
  rw [Chain.entry, late_iter i h]; rfl

/-- A destination whose session with `d` is about to ratchet: 20000 messages went in both directions. -/
def lateSess : Sess := { nsr := none, recv := { chain := lateAt 20004, index := 20004 }, send := { chain := lateAt 20000, index := 20000 }, entries := entryPuts [] ((List.range' 20000 4).map lateEntry) }

def lateMgr (own d : Bytes) : Mgr := { Mgr.new chatCfg own [2] [3] with
  active := [(d, Active.new 0 lateSess)]
  tags := TagMap.new.inserts d (((List.range' 20000 4).map lateEntry).map (·.tag)) }

theorem late_tag {i : Nat} (h : i < 65536) : (lateEntry i).tag = 102 + 2 * i := by
  rw [← late_entry h, spread_tag late_from h]; omega

theorem late_tags : ((List.range' 20000 4).map lateEntry).map (·.tag) = [40102, 40104, 40106, 40108] := by
  simp only [List.range', List.map_cons, List.map_nil]
  rw [late_tag (by decide), late_tag (by decide), late_tag (by decide), late_tag (by decide)]

theorem late_nodup : (((List.range' 20000 4).map lateEntry).map (·.tag)).Nodup := by rw [late_tags]; decide

theorem late_mem {i : Nat} (hi : i < 65535) : (lateEntry i).tag ∈ ((List.range' 20000 4).map lateEntry).map (·.tag) ↔ 20000 ≤ i ∧ i < 20004 := by
  rw [late_tags, late_tag (by omega)]
  simp only [List.mem_cons, List.not_mem_nil, or_false]
  omega

theorem late_watching (own d : Bytes) : Watching chatCfg (lateMgr own d) d (lateAt 0) 0 { n := 20004, found := List.range 20000 } := by
  have hr : ∀ i, ({ n := 20004, found := List.range 20000 } : Window).readable i ↔ 20000 ≤ i ∧ i < 20004 := by
    intro i; simp only [Window.readable, List.mem_range]; omega
  refine ⟨by decide, by simp only [List.mem_range]; omega, ⟨Active.new 0 lateSess, by simp only [lateMgr, Assoc.get, List.find?_cons, decide_true, Option.map_some], ?_, rfl, rfl, fun i hi => ?_⟩, fun i hi => ?_⟩
  · exact (late_iter 20004 (by omega)).symm
  · show entryGet (entryPuts [] ((List.range' 20000 4).map lateEntry)) ((lateAt 0).entry spreadPrims 0 i).tag = if _ then some ((lateAt 0).entry spreadPrims 0 i) else none
    rw [late_entry (by omega)]
    by_cases h : 20000 ≤ i ∧ i < 20004
    · rw [if_pos ((hr i).mpr h)]
      exact entryGet_puts_mem _ _ late_nodup _ (List.mem_map.mpr ⟨i, by simp only [List.mem_range'_1]; omega, rfl⟩)
    · rw [if_neg (fun hh => h ((hr i).mp hh)), entryGet_puts]
      · rfl
      · intro e he heq
        exact h ((late_mem hi).mp (heq ▸ List.mem_map_of_mem (f := (·.tag)) he))
  · show (lateMgr own d).tags.map ((lateAt 0).entry spreadPrims 0 i).tag = _
    rw [late_entry (by omega)]
    simp only [lateMgr, inserts_map]
    by_cases h : 20000 ≤ i ∧ i < 20004
    · rw [if_pos ((hr i).mpr h), if_pos ((late_mem hi).mpr h)]
    · rw [if_neg (fun hh => h ((hr i).mp hh)), if_neg (fun hh => h ((late_mem hi).mp hh))]; rfl

theorem late_direction (own d : Bytes) : Direction chatCfg 2 (lateMgr own d) (lateMgr d own) own d (lateAt 0) 20000 := by
  have hget : ∀ own d, (lateMgr own d).active.get d = some (Active.new 0 lateSess) := by
    intro own d; simp only [lateMgr, Assoc.get, List.find?_cons, decide_true, Option.map_some]
  refine ⟨_, _, _, ⟨hget own d, ?_, rfl, rfl, rfl⟩, rfl, rfl, rfl, hget d own, rfl, late_watching d own, by omega, by decide, ?_⟩
  · exact (late_iter 20000 (by omega)).symm
  · intro l h1 h2
    simp only [Window.readable, List.mem_range]; exact ⟨h2, by omega⟩

theorem late_sound (own d : Bytes) : TagMap.Sound (lateMgr own d).tags := TagMap.Sound.grows (t := TagMap.new) (fun _ h => absurd rfl h) (grows_inserts ..)

/-- Both sides ratchet at once; the answer to the ratchet of the second is dropped, it asks again and is answered. -/
def lateTurns : List Turn := [⟨true, chatDraw 5, chatDraw 6, [1]⟩, ⟨false, chatDraw 7, chatDraw 8, [2]⟩, ⟨true, chatDraw 9, chatDraw 10, [3]⟩, ⟨true, chatDraw 9, chatDraw 10, [4]⟩,
  ⟨false, chatDraw 7, chatDraw 8, [5]⟩, ⟨true, chatDraw 9, chatDraw 10, [6]⟩, ⟨false, chatDraw 7, chatDraw 8, [7]⟩]

example : (converse chatCfg idA idB (lateMgr idA idB) (lateMgr idB idA) lateTurns).1 = lateTurns.map fun t => .ok [received (if t.mine then idB else idA) (t.v, t.msg)] := by
  refine C271_ratchets_partial (C := chatCfg) spreadPrims_lawful (b := 2) (by decide) (by decide) (by decide) (late_direction idA idB) (late_direction idB idA)
    ⟨spread_distinct late_from, spread_distinct late_from⟩ ⟨late_sound idA idB, late_sound idB idA⟩ lateTurns (by simp [Polite, lateTurns]) ?_ ⟨by decide +kernel, by decide +kernel⟩ ⟨by decide +kernel, by decide +kernel⟩
  intro t ht
  simp only [lateTurns, List.mem_cons, List.not_mem_nil, or_false] at ht
  rcases ht with rfl | rfl | rfl | rfl | rfl | rfl | rfl <;> exact chat_fits _ (by decide) _ _

/-- In this conversation both directions go over to their second tag sets. -/
example : (((converse chatCfg idA idB (lateMgr idA idB) (lateMgr idB idA) lateTurns).2.1.active.get idB).map fun a => (a.s.send.id, a.s.recv.id)) = some (1, 1) ∧
    (((converse chatCfg idA idB (lateMgr idA idB) (lateMgr idB idA) lateTurns).2.2.active.get idA).map fun a => (a.s.send.id, a.s.recv.id)) = some (1, 1) := by decide +kernel

/-- C271 is false without the bound: a side that goes on after its ratchet without hearing anything uses entries of the old set that the other side never generates (there are only
so many as were generated ahead and a few more), and its messages are not read. (With four entries ahead and one more; there are 4096 and 128 in the code.) -/
theorem C271_unanswered_violated : ∃ (C : Cfg) (m n : Mgr) (c c' : Chain) (ts : List Turn), C.P.Lawful ∧ Direction C 2 m n idA idB c 20000 ∧ Direction C 2 n m idB idA c' 20000 ∧
    Distinct C.P c ∧ Distinct C.P c' ∧ TagMap.Sound m.tags ∧ TagMap.Sound n.tags ∧ (∀ t ∈ ts, Fits (if t.mine then idB else idA) (t.v, t.msg)) ∧
    (converse C idA idB m n ts).2.1.tags.log.Nodup ∧ (converse C idA idB m n ts).2.2.tags.log.Nodup ∧
    (converse C idA idB m n ts).1 = List.replicate 6 (.ok [received idB (chatDraw 5, [1])]) ++ List.replicate 6 (.error .malformed) := by
  refine ⟨chatCfg, lateMgr idA idB, lateMgr idB idA, _, _, List.replicate 12 ⟨true, chatDraw 5, chatDraw 6, [1]⟩, spreadPrims_lawful, late_direction idA idB, late_direction idB idA,
    spread_distinct late_from, spread_distinct late_from, late_sound idA idB, late_sound idB idA, ?_, by decide +kernel, by decide +kernel, by decide +kernel⟩
  intro t ht
  rw [(List.mem_replicate.mp ht).2]
  exact chat_fits _ (by decide) _ _

end Emissary.Ecies

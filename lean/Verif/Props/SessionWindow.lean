import Verif.Props.Session
/-!
# Which messages a session can read
-/
namespace Emissary.Ecies
open Emissary Emissary.I2np Emissary.Garlic
open Emissary.Ssu2 (Prims)
open Emissary.Ntcp2 (unle le)
open Emissary.Ratchet

/-! ## Helper lemmas -/

theorem Assoc.get_put {β : Type} (m : Assoc β) (k : Bytes) (v : β) : (m.put k v).get k = some v := by
  have h : (m.del k).find? (fun x => decide (x.1 = k)) = none := by
    rw [List.find?_eq_none]
    intro x hx
    have := (List.mem_filter.mp hx).2
    simpa using this
  have e : (m.put k v).find? (fun x => decide (x.1 = k)) = some (k, v) := by
    rw [Assoc.put, List.find?_append, h]; simp
  simp only [Assoc.get, e, Option.map_some]

theorem Assoc.get_put_ne {β : Type} (m : Assoc β) {k k' : Bytes} (v : β) (h : k' ≠ k) : (m.put k v).get k' = m.get k' := by
  have e : (m.put k v).find? (fun x => decide (x.1 = k')) = m.find? (fun x => decide (x.1 = k')) := by
    have e1 : (m.del k).find? (fun x => decide (x.1 = k')) = m.find? (fun x => decide (x.1 = k')) := by
      rw [Assoc.del, List.find?_filter]
      congr 1
      funext x
      by_cases hx : x.1 = k'
      · simp [hx, h]
      · simp [hx]
    rw [Assoc.put, List.find?_append, e1]
    cases m.find? (fun x => decide (x.1 = k')) with
    | some _ => rfl
    | none => simp [Ne.symm h]
  simp only [Assoc.get, e]

theorem Assoc.get_del_ne {β : Type} (m : Assoc β) {k k' : Bytes} (h : k' ≠ k) : (m.del k).get k' = m.get k' := by
  have e : (m.del k).find? (fun x => decide (x.1 = k')) = m.find? (fun x => decide (x.1 = k')) := by
    rw [Assoc.del, List.find?_filter]
    congr 1
    funext x
    by_cases hx : x.1 = k'
    · simp [hx, h]
    · simp [hx]
  simp only [Assoc.get, e]

theorem Assoc.get_del {β : Type} (m : Assoc β) (k : Bytes) : (m.del k).get k = none := by
  simp only [Assoc.get, Option.map_eq_none_iff, List.find?_eq_none]
  intro x hx
  have := (List.mem_filter.mp hx).2
  simpa using this

theorem entryGet_del (es : List Entry) (t x : Nat) : entryGet (entryDel es t) x = if x = t then none else entryGet es x := by
  simp only [entryGet, entryDel, List.find?_filter]
  by_cases h : x = t
  · rw [if_pos h, List.find?_eq_none]
    intro e _
    simp [h]
  · rw [if_neg h]
    congr 1
    funext e
    by_cases hx : e.tag = x
    · simp [hx, h]
    · simp [hx]

theorem entryGet_put (es : List Entry) (e : Entry) (x : Nat) : entryGet (entryPut es e) x = if x = e.tag then some e else entryGet es x := by
  rw [entryPut, entryGet, List.find?_append]
  have h := entryGet_del es e.tag x
  rw [entryGet] at h
  rw [h]
  by_cases hx : x = e.tag
  · simp [hx]
  · rw [if_neg hx, if_neg hx]
    cases entryGet es x <;> simp [Ne.symm hx]

/-! ## Specification -/

/-- The cloves in a message. -/
def clovesOf (bs : List Block) : List Clove := bs.filterMap fun
  | .clove type id expiration delivery body => some { type, id, expiration, delivery, body }
  | _ => none

/-- What a receiver has of a tag set: it has generated the first `n` entries, and `found` are the indices of the messages that came. -/
structure Window where
  n : Nat
  found : List Nat
deriving Repr, DecidableEq

/-- A message is readable if its entry was generated and no message with it came before. -/
def Window.readable (w : Window) (i : Nat) : Prop := i < w.n ∧ i ∉ w.found

instance (w : Window) (i : Nat) : Decidable (w.readable i) := inferInstanceAs (Decidable (_ ∧ _))

/-- For every message that comes one more entry is generated, up to 65535. -/
def Window.take (w : Window) (i : Nat) : Window := if w.readable i then { n := min (w.n + 1) 65535, found := i :: w.found } else w

/-- The manager has a session with `d`, and watches for the entries of the tag set with chain `c` and id `k` that `w` says. -/
structure Watching (C : Cfg) (m : Mgr) (d : Bytes) (c : Chain) (k : Nat) (w : Window) : Prop where
  le : w.n ≤ 65535
  fits : ∀ j ∈ w.found, j < w.n
  sess : ∃ a, m.active.get d = some a ∧ a.s.recv.chain = c.iter C.P w.n ∧ a.s.recv.index = w.n ∧ a.s.recv.id = k ∧
    ∀ i < 65535, entryGet a.s.entries (c.entry C.P k i).tag = if w.readable i then some (c.entry C.P k i) else none
  tags : ∀ i < 65535, m.tags.map (c.entry C.P k i).tag = if w.readable i then some d else none

/-- No two tags of the set are equal. -/
def Distinct (P : Prims) (c : Chain) : Prop := ∀ i < 65535, ∀ j < 65535, (c.entry P 0 i).tag = (c.entry P 0 j).tag → i = j

/-- What can come with the tag of the `i`-th entry: the message sealed with it, or something that it does not open. -/
def Genuine (C : Cfg) (c : Chain) (k i : Nat) (bs : List Block) (msg : Bytes) : Prop :=
  ∃ plain, parse plain = some bs ∧ (∀ kind, Block.nextKey kind ∉ bs) ∧ msg = prefixed (Entry.seal C.P (c.entry C.P k i) plain)

def Damaged (C : Cfg) (c : Chain) (k i : Nat) (msg : Bytes) : Prop :=
  garlicTag msg = some (c.entry C.P k i).tag ∧ Entry.open C.P (c.entry C.P k i) msg = none

/-! ## Proofs -/

theorem entry_tag (P : Prims) (c : Chain) (k i : Nat) : (c.entry P k i).tag = (c.entry P 0 i).tag := rfl

theorem handleKeys_none (C : Cfg) (v : Draw) (remote : Bytes) (bs : List Block) (h : ∀ kind, Block.nextKey kind ∉ bs) :
    ∀ i s t, Sess.handleKeys C v remote i bs s t = (.ok (), s, t) := by
  induction bs with
  | nil => intros; rfl
  | cons b bs ih =>
    intro i s t
    have h' : ∀ kind, Block.nextKey kind ∉ bs := fun kind hk => h kind (List.mem_cons_of_mem _ hk)
    cases b with
    | nextKey kind => exact absurd (List.mem_cons_self) (h kind)
    | _ => exact ih h' ..

theorem blocks_active (d : Bytes) (tag : Nat × Nat) (bs : List Block) : ∀ (m : Mgr) (a : Active), m.active.get d = some a →
    ∃ m' a', Mgr.blocks d tag bs m = (clovesOf bs, false, m') ∧ m'.active.get d = some a' ∧ a'.s = a.s ∧ m'.tags = m.tags := by
  induction bs with
  | nil => intro m a h; exact ⟨m, a, rfl, h, rfl, rfl⟩
  | cons b bs ih =>
    intro m a h
    cases b with
    | clove ty id ex dl bd =>
      obtain ⟨m', a', h1, h2, h3, h4⟩ := ih m a h
      exact ⟨m', a', by simp only [Mgr.blocks, h1]; rfl, h2, h3, h4⟩
    | ackRequest =>
      obtain ⟨m', a', h1, h2, h3, h4⟩ := ih { m with active := m.active.put d { a with inAcks := setPut a.inAcks tag } } _ (Assoc.get_put ..)
      exact ⟨m', a', by simp only [Mgr.blocks, h, h1]; rfl, h2, h3, h4⟩
    | ack acks =>
      obtain ⟨m', a', h1, h2, h3, h4⟩ := ih { m with active := m.active.put d (if acks.any fun x => a.outAcks.contains x then { a with outAcks := a.outAcks.filter (!acks.contains ·), leaseSet := none } else a) } _ (Assoc.get_put ..)
      refine ⟨m', a', by simp only [Mgr.blocks, h, h1]; rfl, h2, ?_, h4⟩
      rw [h3]; split <;> rfl
    | _ =>
      obtain ⟨m', a', h1, h2, h3, h4⟩ := ih m a h
      exact ⟨m', a', by simp only [Mgr.blocks, h1]; rfl, h2, h3, h4⟩

theorem readable_take {w : Window} {i : Nat} (hn : w.n ≤ 65535) (h : w.readable i) {j : Nat} (hj : j < 65535) :
    (w.take i).readable j ↔ (w.readable j ∧ j ≠ i) ∨ (j = w.n ∧ j ∉ w.found) := by
  have hi := h.1
  have e : w.take i = { n := min (w.n + 1) 65535, found := i :: w.found } := if_pos h
  rw [e]
  simp only [Window.readable, List.mem_cons]
  constructor
  · rintro ⟨h1, h2⟩
    by_cases e : j = w.n
    · exact .inr ⟨e, fun hf => h2 (.inr hf)⟩
    · exact .inl ⟨⟨by omega, fun hf => h2 (.inr hf)⟩, fun he => h2 (.inl he)⟩
  · rintro (⟨⟨h1, h2⟩, h3⟩ | ⟨h1, h2⟩)
    · exact ⟨by omega, by rintro (h4 | h4); exacts [h3 h4, h2 h4]⟩
    · exact ⟨by omega, by rintro (h4 | h4); exacts [by omega, h2 h4]⟩

theorem tag_of_sealed (P : Prims) (c : Chain) (k i : Nat) (plain : Bytes) :
    garlicTag (prefixed (Entry.seal P (c.entry P k i) plain)) = some (c.entry P k i).tag := by
  have hl8 : ∀ n, (le 8 n).length = 8 := fun n => by simp [le]
  have hl : 12 ≤ (prefixed (Entry.seal P (c.entry P k i) plain)).length := by
    simp only [prefixed, Entry.seal, List.length_append, be_length, hl8]; omega
  rw [garlicTag, if_pos hl]
  have h := tag_lt P c k i
  have e : ((prefixed (Entry.seal P (c.entry P k i) plain)).drop 4).take 8 = le 8 (c.entry P k i).tag := by
    rw [prefixed, List.drop_left' (be_length ..), Entry.seal, List.take_left' (hl8 _)]
  rw [e]
  exact congrArg some (Ssu2.unle_le8 _ h)

theorem open_sealed {P : Prims} (hP : P.Lawful) (e : Entry) (plain : Bytes) : Entry.open P e (prefixed (Entry.seal P e plain)) = some plain := by
  have hl8 : ∀ n, (le 8 n).length = 8 := fun n => by simp [le]
  rw [Entry.open, prefixed, Entry.seal, ← List.append_assoc, List.drop_left' (by simp [hl8]), Ssu2.unseal_seal hP.crypto]

/-- The state after a message with the tag of a readable entry, whatever else is in it. -/
theorem refill_spec {C : Cfg} {m : Mgr} {d : Bytes} {c : Chain} {k : Nat} {w : Window} (h : Watching C m d c k w) (hd : Distinct C.P c)
    {i : Nat} (hi : i < 65535) (hr : w.readable i) {a : Active} (ha : m.active.get d = some a) :
    let r := ({ a.s with entries := entryDel a.s.entries (c.entry C.P k i).tag } : Sess).refill C d (m.tags.remove (c.entry C.P k i).tag)
    r.1.recv.chain = c.iter C.P (w.take i).n ∧ r.1.recv.index = (w.take i).n ∧ r.1.recv.id = k ∧
    (∀ j < 65535, entryGet r.1.entries (c.entry C.P k j).tag = if (w.take i).readable j then some (c.entry C.P k j) else none) ∧
    (∀ j < 65535, r.2.map (c.entry C.P k j).tag = if (w.take i).readable j then some d else none) := by
  obtain ⟨a', ha', h1, h2, h3, h4⟩ := h.sess
  rw [ha] at ha'; cases ha'
  have hinj : ∀ j < 65535, ∀ l < 65535, (c.entry C.P k j).tag = (c.entry C.P k l).tag ↔ j = l :=
    fun j hj l hl => ⟨fun e => hd j hj l hl e, fun e => by rw [e]⟩
  have hle := h.le
  have hf := h.fits
  have hin := hr.1
  have htake : (w.take i).n = min (w.n + 1) 65535 := by simp only [Window.take, if_pos hr]
  intro r
  by_cases hw : w.n < 65535
  · have hnext : a.s.recv.next C.P = (some (c.entry C.P k w.n), { a.s.recv with index := w.n + 1, chain := c.iter C.P (w.n + 1) }) := by
      have e : a.s.recv.index + 1 < 2 ^ 16 := by rw [h2]; omega
      rw [TagSet.next, if_pos e]
      simp only [h1, h2, h3, Chain.entry, Chain.iter]
    have hr' : r = ({ a.s with recv := { a.s.recv with index := w.n + 1, chain := c.iter C.P (w.n + 1) }, entries := entryPut (entryDel a.s.entries (c.entry C.P k i).tag) (c.entry C.P k w.n) },
        (m.tags.remove (c.entry C.P k i).tag).insert d (c.entry C.P k w.n).tag) := by
      simp only [r, Sess.refill, hnext]
    rw [hr', htake]
    have hmin : min (w.n + 1) 65535 = w.n + 1 := by omega
    rw [hmin]
    refine ⟨rfl, rfl, h3, fun j hj => ?_, fun j hj => ?_⟩
    · simp only [entryGet_put, entryGet_del, hinj j hj w.n hw, hinj j hj i hi]
      by_cases e : j = w.n
      · rw [if_pos e, if_pos ((readable_take hle hr hj).mpr (.inr ⟨e, fun hm => by have := hf j hm; omega⟩)), e]
      · rw [if_neg e]
        by_cases e2 : j = i
        · rw [if_pos e2, if_neg]
          rw [readable_take hle hr hj]
          rintro (⟨_, h5⟩ | ⟨h5, _⟩)
          · exact h5 e2
          · exact e h5
        · rw [if_neg e2, h4 j hj]
          by_cases hrj : w.readable j
          · rw [if_pos hrj, if_pos ((readable_take hle hr hj).mpr (.inl ⟨hrj, e2⟩))]
          · rw [if_neg hrj, if_neg]
            rw [readable_take hle hr hj]
            rintro (⟨h5, _⟩ | ⟨h5, _⟩)
            · exact hrj h5
            · exact e h5
    · simp only [TagMap.insert, TagMap.remove, hinj j hj w.n hw, hinj j hj i hi]
      by_cases e : j = w.n
      · rw [if_pos e, if_pos ((readable_take hle hr hj).mpr (.inr ⟨e, fun hm => by have := hf j hm; omega⟩))]
      · rw [if_neg e]
        by_cases e2 : j = i
        · rw [if_pos e2, if_neg]
          rw [readable_take hle hr hj]
          rintro (⟨_, h5⟩ | ⟨h5, _⟩)
          · exact h5 e2
          · exact e h5
        · rw [if_neg e2, h.tags j hj]
          by_cases hrj : w.readable j
          · rw [if_pos hrj, if_pos ((readable_take hle hr hj).mpr (.inl ⟨hrj, e2⟩))]
          · rw [if_neg hrj, if_neg]
            rw [readable_take hle hr hj]
            rintro (⟨h5, _⟩ | ⟨h5, _⟩)
            · exact hrj h5
            · exact e h5
  · have hn : w.n = 65535 := by omega
    have hnext : a.s.recv.next C.P = (none, a.s.recv) := by
      have e : ¬ a.s.recv.index + 1 < 2 ^ 16 := by rw [h2]; omega
      rw [TagSet.next, if_neg e]
    have hr' : r = ({ a.s with entries := entryDel a.s.entries (c.entry C.P k i).tag }, m.tags.remove (c.entry C.P k i).tag) := by
      simp only [r, Sess.refill, hnext]
    rw [hr', htake]
    have hmin : min (w.n + 1) 65535 = w.n := by omega
    rw [hmin]
    have hiff : ∀ j < 65535, (w.take i).readable j ↔ w.readable j ∧ j ≠ i := by
      intro j hj
      rw [readable_take hle hr hj]
      exact ⟨fun h5 => h5.elim id fun h6 => by omega, .inl⟩
    refine ⟨h1, h2, h3, fun j hj => ?_, fun j hj => ?_⟩
    · simp only [entryGet_del, hinj j hj i hi]
      by_cases e2 : j = i
      · rw [if_pos e2, if_neg (by rw [hiff j hj]; exact fun h5 => h5.2 e2)]
      · rw [if_neg e2, h4 j hj]
        by_cases hrj : w.readable j
        · rw [if_pos hrj, if_pos ((hiff j hj).mpr ⟨hrj, e2⟩)]
        · rw [if_neg hrj, if_neg (by rw [hiff j hj]; exact fun h5 => hrj h5.1)]
    · simp only [TagMap.remove, hinj j hj i hi]
      by_cases e2 : j = i
      · rw [if_pos e2, if_neg (by rw [hiff j hj]; exact fun h5 => h5.2 e2)]
      · rw [if_neg e2, h.tags j hj]
        by_cases hrj : w.readable j
        · rw [if_pos hrj, if_pos ((hiff j hj).mpr ⟨hrj, e2⟩)]
        · rw [if_neg hrj, if_neg (by rw [hiff j hj]; exact fun h5 => hrj h5.1)]

theorem take_le {w : Window} (h : w.n ≤ 65535) (i : Nat) : (w.take i).n ≤ 65535 := by
  rw [Window.take]; split
  · exact Nat.min_le_right ..
  · exact h

theorem take_fits {w : Window} (h : w.n ≤ 65535) (hf : ∀ j ∈ w.found, j < w.n) (i : Nat) : ∀ j ∈ (w.take i).found, j < (w.take i).n := by
  rw [Window.take]; split
  · rename_i hr
    intro j hj
    have hi := hr.1
    simp only [List.mem_cons] at hj ⊢
    rcases hj with rfl | hj
    · omega
    · have := hf j hj; omega
  · exact hf

/-- C115: a message sealed with an entry that was generated and not yet used is read, whatever order messages come in and whatever was lost;
afterwards the entry is used up and one more is watched for. -/
theorem C115_readable_partial {C : Cfg} (hP : C.P.Lawful) {m : Mgr} {d : Bytes} {c : Chain} {k : Nat} {w : Window} (h : Watching C m d c k w)
    (hd : Distinct C.P c) {i : Nat} (hr : w.readable i) (v : Draw) {bs : List Block} {msg : Bytes} (hg : Genuine C c k i bs msg) :
    ∃ m', m.decrypt C v msg = (.ok (clovesOf bs), m') ∧ Watching C m' d c k (w.take i) := by
  obtain ⟨plain, hp, hk, rfl⟩ := hg
  have hi : i < 65535 := Nat.lt_of_lt_of_le hr.1 h.le
  obtain ⟨a, ha, h1, h2, h3, h4⟩ := h.sess
  have ht : m.tags.map (c.entry C.P k i).tag = some d := by rw [h.tags i hi, if_pos hr]
  have he : entryGet a.s.entries (c.entry C.P k i).tag = some (c.entry C.P k i) := by rw [h4 i hi, if_pos hr]
  obtain ⟨r1, r2, r3, r4, r5⟩ := refill_spec h hd hi hr ha
  have hdec : a.s.decrypt C v d (c.entry C.P k i).tag (prefixed (Entry.seal C.P (c.entry C.P k i) plain)) (m.tags.remove (c.entry C.P k i).tag) =
      (.ok ((c.entry C.P k i).setId, (c.entry C.P k i).index, plain),
        ({ a.s with entries := entryDel a.s.entries (c.entry C.P k i).tag } : Sess).refill C d (m.tags.remove (c.entry C.P k i).tag)) := by
    simp only [Sess.decrypt, he, open_sealed hP, hp, handleKeys_none C v d bs hk]
  generalize ({ a.s with entries := entryDel a.s.entries (c.entry C.P k i).tag } : Sess).refill C d (m.tags.remove (c.entry C.P k i).tag) = r at *
  obtain ⟨m', a', b1, b2, b3, b4⟩ := blocks_active d ((c.entry C.P k i).setId, (c.entry C.P k i).index) bs
    { m with tags := r.2, active := m.active.put d { a with s := r.1, lastRecv := v.now } } _ (Assoc.get_put ..)
  refine ⟨m', ?_, take_le h.le i, take_fits h.le h.fits i, ⟨a', b2, ?_⟩, ?_⟩
  · simp only [Mgr.decrypt, tag_of_sealed, ht, Mgr.decryptTagged, ha, hdec, Mgr.finish, hp, b1]
    simp
  · rw [b3]; exact ⟨r1, r2, r3, r4⟩
  · rw [b4]; exact r5

/-- C115: a damaged message with the tag of a readable entry is refused, and the session goes on; the entry is used up. -/
theorem C115_damaged_partial {C : Cfg} {m : Mgr} {d : Bytes} {c : Chain} {k : Nat} {w : Window} (h : Watching C m d c k w)
    (hd : Distinct C.P c) {i : Nat} (hr : w.readable i) (v : Draw) {msg : Bytes} (hg : Damaged C c k i msg) :
    ∃ m', m.decrypt C v msg = (.error .crypto, m') ∧ Watching C m' d c k (w.take i) := by
  obtain ⟨htag, hopen⟩ := hg
  have hi : i < 65535 := Nat.lt_of_lt_of_le hr.1 h.le
  obtain ⟨a, ha, h1, h2, h3, h4⟩ := h.sess
  have ht : m.tags.map (c.entry C.P k i).tag = some d := by rw [h.tags i hi, if_pos hr]
  have he : entryGet a.s.entries (c.entry C.P k i).tag = some (c.entry C.P k i) := by rw [h4 i hi, if_pos hr]
  obtain ⟨r1, r2, r3, r4, r5⟩ := refill_spec h hd hi hr ha
  have hdec : a.s.decrypt C v d (c.entry C.P k i).tag msg (m.tags.remove (c.entry C.P k i).tag) =
      (.error .crypto, ({ a.s with entries := entryDel a.s.entries (c.entry C.P k i).tag } : Sess).refill C d (m.tags.remove (c.entry C.P k i).tag)) := by
    simp only [Sess.decrypt, he, hopen]
  generalize ({ a.s with entries := entryDel a.s.entries (c.entry C.P k i).tag } : Sess).refill C d (m.tags.remove (c.entry C.P k i).tag) = r at *
  refine ⟨{ m with tags := r.2, active := m.active.put d { a with s := r.1 } }, ?_, take_le h.le i, take_fits h.le h.fits i,
    ⟨{ a with s := r.1 }, Assoc.get_put .., r1, r2, r3, r4⟩, r5⟩
  simp only [Mgr.decrypt, htag, ht, Mgr.decryptTagged, ha, hdec]

/-- C115: a message with the tag of an entry that is not readable (used, or not yet generated) is refused and changes nothing. -/
theorem C115_unreadable_partial {C : Cfg} {m : Mgr} {d : Bytes} {c : Chain} {k : Nat} {w : Window} (h : Watching C m d c k w)
    {i : Nat} (hi : i < 65535) (hr : ¬ w.readable i) (v : Draw) {msg : Bytes} (ht : garlicTag msg = some (c.entry C.P k i).tag)
    {e : Err} (he : m.ctx.accept C.P C.E msg = .error e) : m.decrypt C v msg = (.error e, m) := by
  have := h.tags i hi
  rw [if_neg hr] at this
  simp only [Mgr.decrypt, ht, this, Mgr.decryptNew, he]

/-- C115 does not hold: if all the messages that were watched for are lost, every later message of the tag set is refused, whatever comes and
however often: the session is deaf from then on. -/
theorem C115_deaf_violated {C : Cfg} {m : Mgr} {d : Bytes} {c : Chain} {k : Nat} {w : Window} (h : Watching C m d c k w)
    (msgs : List (Draw × Bytes))
    (hm : ∀ x ∈ msgs, ∃ i bs, w.n ≤ i ∧ i < 65535 ∧ Genuine C c k i bs x.2 ∧ ∃ e, m.ctx.accept C.P C.E x.2 = .error e) :
    m.run C (msgs.map fun x => .decrypt x.1 x.2) = m ∧ ∀ x ∈ msgs, ∃ e, (m.decrypt C x.1 x.2).1 = .error e := by
  have one : ∀ x ∈ msgs, ∃ e, m.decrypt C x.1 x.2 = (.error e, m) := by
    intro x hx
    obtain ⟨i, bs, h1, h2, ⟨plain, _, _, h3⟩, e, he⟩ := hm x hx
    refine ⟨e, C115_unreadable_partial h h2 (fun hr => ?_) x.1 (by rw [h3]; exact tag_of_sealed ..) he⟩
    have := hr.1; omega
  refine ⟨?_, fun x hx => ?_⟩
  · clear hm
    induction msgs with
    | nil => rfl
    | cons x msgs ih =>
      obtain ⟨e, he⟩ := one x List.mem_cons_self
      simp only [List.map_cons, Mgr.run, List.foldl_cons, Mgr.step, he]
      exact ih fun y hy => one y (List.mem_cons_of_mem _ hy)
  · obtain ⟨e, he⟩ := one x hx
    exact ⟨e, by rw [he]⟩

/-- Sending does not change what is read. -/
theorem C115_encrypt_partial {C : Cfg} {m : Mgr} {d : Bytes} {c : Chain} {k : Nat} {w : Window} (h : Watching C m d c k w) (v : Draw) (msg : Bytes)
    {out : Bytes} (ho : (m.encrypt C v d msg).1 = .ok out) : Watching C (m.encrypt C v d msg).2 d c k w := by
  obtain ⟨a, ha, h1, h2, h3, h4⟩ := h.sess
  simp only [Mgr.encrypt, ha] at ho ⊢
  have hs : ∀ bs, ((a.s.encrypt C v bs).2).recv = a.s.recv ∧ ((a.s.encrypt C v bs).2).entries = a.s.entries := by
    intro bs
    simp only [Sess.encrypt]
    repeat' split
    all_goals exact ⟨rfl, rfl⟩
  generalize hb : ([dataClove v 0 d msg] ++ (if a.inAcks.isEmpty then [] else [Block.ack a.inAcks])) ++ _ = bs at ho ⊢
  have hs := hs bs
  split at ho
  · cases ho
  · cases ho
  · cases ho
  · rename_i i j out' s' hx
    rw [hx] at hs
    refine ⟨h.le, h.fits, ⟨_, Assoc.get_put .., ?_⟩, h.tags⟩
    split <;> (simp only; rw [hs.1, hs.2]; exact ⟨h1, h2, h3, h4⟩)

theorem inserts_map (d : Bytes) (xs : List Nat) : ∀ (t : TagMap) (x : Nat), (t.inserts d xs).map x = if x ∈ xs then some d else t.map x := by
  induction xs with
  | nil => intro t x; simp [TagMap.inserts]
  | cons y xs ih =>
    intro t x
    have e : t.inserts d (y :: xs) = (t.insert d y).inserts d xs := rfl
    rw [e, ih]
    by_cases h : x ∈ xs
    · rw [if_pos h, if_pos (List.mem_cons_of_mem _ h)]
    · rw [if_neg h]
      simp only [TagMap.insert, List.mem_cons, h, or_false]

theorem entryGet_puts (new : List Entry) : ∀ (es : List Entry) (x : Nat), (∀ e ∈ new, e.tag ≠ x) → entryGet (entryPuts es new) x = entryGet es x := by
  induction new with
  | nil => intro es x _; rfl
  | cons e new ih =>
    intro es x h
    have e1 : entryPuts es (e :: new) = entryPuts (entryPut es e) new := rfl
    rw [e1, ih _ _ fun y hy => h y (List.mem_cons_of_mem _ hy), entryGet_put, if_neg (Ne.symm (h e List.mem_cons_self))]

theorem entryGet_puts_mem (new : List Entry) : ∀ (es : List Entry), (new.map (·.tag)).Nodup → ∀ e ∈ new, entryGet (entryPuts es new) e.tag = some e := by
  induction new with
  | nil => intro es _ e he; cases he
  | cons y new ih =>
    intro es h e he
    have e1 : entryPuts es (y :: new) = entryPuts (entryPut es y) new := rfl
    simp only [List.map_cons, List.nodup_cons, List.mem_map, not_exists, not_and] at h
    rcases List.mem_cons.mp he with rfl | he
    · rw [e1, entryGet_puts _ _ _ fun z hz => h.1 z hz, entryGet_put, if_pos rfl]
    · rw [e1]; exact ih _ h.2 e he

theorem firsts_nodup {P : Prims} {c : Chain} (hd : Distinct P c) {R : Nat} (hR : R ≤ 65535) (k : Nat) :
    (((List.range' 0 R).map (c.entry P k)).map (·.tag)).Nodup := by
  rw [List.map_map]
  refine List.pairwise_map.mpr (List.Pairwise.imp_of_mem ?_ (List.nodup_range' (s := 0) (n := R)))
  intro x y hx hy hne e
  simp only [List.mem_range'_1] at hx hy
  exact hne (hd x (by omega) y (by omega) e)

theorem firsts_get {P : Prims} {c : Chain} (hd : Distinct P c) {R : Nat} (hR : R ≤ 65535) (k : Nat) {j : Nat} (hj : j < 65535) :
    entryGet (entryPuts [] ((List.range' 0 R).map (c.entry P k))) (c.entry P k j).tag = if j < R then some (c.entry P k j) else none := by
  by_cases h : j < R
  · rw [if_pos h]
    exact entryGet_puts_mem _ _ (firsts_nodup hd hR k) _ (List.mem_map.mpr ⟨j, by simp only [List.mem_range'_1]; omega, rfl⟩)
  · rw [if_neg h, entryGet_puts]
    · rfl
    · intro e he
      obtain ⟨l, hl, rfl⟩ := List.mem_map.mp he
      simp only [List.mem_range'_1] at hl
      intro e
      have := hd l (by omega) j hj e
      omega

theorem firsts_mem {P : Prims} {c : Chain} (hd : Distinct P c) {R : Nat} (hR : R ≤ 65535) (k : Nat) {j : Nat} (hj : j < 65535) :
    (c.entry P k j).tag ∈ ((List.range' 0 R).map (c.entry P k)).map (·.tag) ↔ j < R := by
  simp only [List.map_map, List.mem_map, List.mem_range'_1, Function.comp]
  constructor
  · rintro ⟨l, hl, e⟩
    have := hd l (by omega) j hj e
    omega
  · intro h; exact ⟨j, by omega, rfl⟩

theorem blocks_plain (d : Bytes) (tag : Nat × Nat) (bs : List Block) (hbs : ∀ b ∈ bs, (∀ x, b ≠ .ack x) ∧ b ≠ .ackRequest) (m : Mgr) :
    Mgr.blocks d tag bs m = (clovesOf bs, false, m) := by
  induction bs with
  | nil => rfl
  | cons b bs ih =>
    have ih := ih fun b hb => hbs b (List.mem_cons_of_mem _ hb)
    have hb := hbs b List.mem_cons_self
    cases b with
    | ack x => exact absurd rfl (hb.1 x)
    | ackRequest => exact absurd rfl hb.2
    | _ => simp only [Mgr.blocks, ih]; rfl

/-- The initiator of a session watches for the first entries as soon as it has sent the first message: with the code's numbers, for 4096. -/
theorem C115_initiator_partial {C : Cfg} (hT : C.T.recv ≤ 65535) {m : Mgr} {d : Bytes} (v v' : Draw) {cr : Duration} {outs : List Outbound} {pk : Bytes}
    {nsr : NsrEntries} {t i : Nat} {e : Entry} {o : Outbound} {msg plain : Bytes} {bs : List Block} {send recv : TagSet} {root key out data : Bytes}
    (ha : m.active.get d = none) (hp : m.pending.get d = some ⟨cr, .awaitNsr outs pk nsr []⟩) (hn : nsrGet nsr t = some (i, e))
    (ho : outs[i]? = some o) (ht : garlicTag msg = some t) (htd : m.tags.map t = some d)
    (hh : o.handleReply C.P C.E C.chk e msg = .ok (plain, send, recv)) (hrecv : recv = TagSet.after C.P root key 0)
    (hparse : parse plain = some bs) (hbs : ∀ b ∈ bs, (∀ x, b ≠ .ack x) ∧ b ≠ .ackRequest)
    (hd : Distinct C.P (Chain.new C.P root key)) (hfresh : ∀ j < 65535, m.tags.map ((Chain.new C.P root key).entry C.P 0 j).tag = none)
    (hsend : ((m.decrypt C v msg).2.encrypt C v' d data).1 = .ok out) :
    (m.decrypt C v msg).1 = .ok (clovesOf bs) ∧
    Watching C ((m.decrypt C v msg).2.encrypt C v' d data).2 d (Chain.new C.P root key) 0 { n := C.T.recv, found := [] } := by
  subst hrecv
  have hnx := nexts_after C.P root key C.T.recv 0 (by omega)
  have hm1 : m.decrypt C v msg = (.ok (clovesOf bs), { m with
      tags := (m.tags.remove t).inserts d (((List.range' 0 C.T.recv).map (entryAt C.P root key)).map (·.tag)),
      pending := m.pending.put d ⟨cr, .awaitEs outs send (TagSet.after C.P root key (0 + C.T.recv)) pk (nsrDel nsr t)
        (entryPuts [] ((List.range' 0 C.T.recv).map (entryAt C.P root key)))⟩ }) := by
    simp only [Mgr.decrypt, ht, htd, Mgr.decryptTagged, ha, hp, PState.advanceIn, hn, ho, hh, hnx, Mgr.finish, hparse, blocks_plain d _ bs hbs]
    simp
  rw [hm1] at hsend ⊢
  refine ⟨rfl, ?_⟩
  simp only [Mgr.encrypt, ha, Assoc.get_put, PState.advanceOut] at hsend ⊢
  cases hx : send.next C.P with
  | mk r send' =>
    cases r with
    | none => exfalso; cases hc : C.chk <;> simp [hx, invalid, hc] at hsend
    | some e0 =>
      simp only [hx] at hsend ⊢
      cases hb : build [dataClove v' 0 d data] with
      | none => rw [hb] at hsend; cases hsend
      | some pl =>
        simp only
        refine ⟨hT, by simp, ⟨_, Assoc.get_put .., ?_, ?_, rfl, fun j hj => ?_⟩, fun j hj => ?_⟩
        · simp only [Active.new, TagSet.after, Nat.zero_add]
        · simp only [Active.new, TagSet.after, Nat.zero_add]
        · have := firsts_get hd hT 0 hj
          simp only [Active.new, Window.readable, List.not_mem_nil, not_false_eq_true, and_true]
          exact this
        · simp only [inserts_map, Window.readable, List.not_mem_nil, not_false_eq_true, and_true]
          have hm := firsts_mem hd hT 0 hj
          have e1 : (List.range' 0 C.T.recv).map (entryAt C.P root key) = (List.range' 0 C.T.recv).map ((Chain.new C.P root key).entry C.P 0) := rfl
          rw [e1]
          by_cases h : j < C.T.recv
          · rw [if_pos (hm.mpr h), if_pos h]
          · rw [if_neg (fun hh => h (hm.mp hh)), if_neg h]
            simp only [TagMap.remove, hfresh j hj, ite_self]

/-! ### The hypotheses can be met -/

/-- A keyed hash that counts, so that no two tags of a set are equal. -/
def countPrims : Prims := { TBuild.toyQ with hmac := fun k _ => le 8 (unle (k.take 8) + 1) }

theorem countPrims_lawful : countPrims.Lawful :=
  ⟨Ssu2.toyC_lawful, fun a b => by simp [countPrims, TBuild.toyQ, UInt8.add_comm], fun a => by simp [countPrims, TBuild.toyQ]⟩

theorem count_hmac (n : Nat) (h : n < 2 ^ 60) (d : Bytes) : countPrims.hmac (le 8 n) d = le 8 (n + 1) := by
  have hl : (le 8 n).length ≤ 8 := by simp [le]
  simp only [countPrims]
  rw [List.take_of_length_le hl, Ssu2.unle_le8 n (by omega)]

theorem count_iter (c : Chain) (b : Nat) (hb : b < 2 ^ 50) (hc : c.tagData = le 8 b) : ∀ i, i < 65536 → (c.iter countPrims i).tagData = le 8 (b + 2 * i)
  | 0, _ => hc
  | i + 1, h => by
    have ih := count_iter c b hb hc i (by omega)
    simp only [Chain.iter, Chain.step]
    rw [ih, count_hmac _ (by omega), count_hmac _ (by omega)]
    congr 1

theorem count_tag (c : Chain) (b : Nat) (hb : b < 2 ^ 50) (hc : c.tagData = le 8 b) {i : Nat} (h : i < 65536) : (c.entry countPrims 0 i).tag = b + 2 * i + 2 := by
  have hl : ∀ n, (le 8 n).length ≤ 8 := fun n => by simp [le]
  simp only [Chain.entry, Chain.step]
  rw [count_iter c b hb hc i h, count_hmac _ (by omega), count_hmac _ (by omega)]
  rw [List.take_of_length_le (hl _), Ssu2.unle_le8 _ (by omega)]

theorem count_distinct (c : Chain) (b : Nat) (hb : b < 2 ^ 50) (hc : c.tagData = le 8 b) : Distinct countPrims c := by
  intro i hi j hj e
  rw [count_tag c b hb hc (by omega), count_tag c b hb hc (by omega)] at e
  omega

def sampleChain : Chain := Chain.new countPrims [1] [2]

theorem sampleChain_distinct : Distinct countPrims sampleChain := count_distinct sampleChain 7 (by decide) (by decide +kernel)

/-- A manager with a session, watching for the first four messages. -/
def sampleMgr (C : Cfg) : Mgr := { Mgr.new C [1] [2] [3] with
  active := [([9], Active.new 0 { nsr := none, recv := { chain := sampleChain.iter C.P 4, index := 4 }, send := TagSet.new C.P [3] [4], entries := entryPuts [] ((List.range' 0 4).map (sampleChain.entry C.P 0)) })]
  tags := TagMap.new.inserts [9] (((List.range' 0 4).map (sampleChain.entry C.P 0)).map (·.tag)) }

def sampleCfg : Cfg := { P := countPrims, E := { encode := countPrims.pub, decode := some }, T := ⟨3, 4, 1⟩, chk := true, readStore := fun _ => none }

theorem sample_watching : Watching sampleCfg (sampleMgr sampleCfg) [9] sampleChain 0 { n := 4, found := [] } := by
  refine ⟨by decide, by simp, ⟨_, rfl, rfl, rfl, rfl, fun j hj => ?_⟩, fun j hj => ?_⟩
  · have := firsts_get sampleChain_distinct (R := 4) (by decide) 0 hj
    simp only [Window.readable, List.not_mem_nil, not_false_eq_true, and_true]
    exact this
  · have hm := firsts_mem sampleChain_distinct (R := 4) (by decide) 0 hj
    simp only [sampleMgr, inserts_map, Window.readable, List.not_mem_nil, not_false_eq_true, and_true]
    by_cases h : j < 4
    · rw [if_pos h]; exact if_pos (hm.mpr h)
    · rw [if_neg h]; exact if_neg fun hh => h (hm.mp hh)

/-- The third message comes first and is read. -/
example (v : Draw) := C115_readable_partial countPrims_lawful sample_watching sampleChain_distinct (i := 2) (by decide) v
  (bs := [.dateTime 7]) ⟨be 1 0 ++ be 2 4 ++ be 4 7, by decide +kernel, by simp, rfl⟩

end Emissary.Ecies

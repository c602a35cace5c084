import Verif.Props.SamNaming
/-!
# Streams and datagrams of a SAM session

* C175: datagrams are sent in order.
* C176: a client that wants a stream gets it or an answer.
-/
namespace Emissary.SamSession

open Emissary.SamParser (Str Kind)

variable {D : Type} [DecidableEq D]

/-! ## Specification -/

/-- The datagrams that were handed over to be sent to a destination. -/
def sentTo (d : D) (os : List (Out D)) : List Bytes := os.filterMap fun
  | .datagram x b => if x = d then some b else none
  | _ => none

/-- The datagrams for a destination that the client gave. -/
def givenTo (d : D) (ops : List (Op D)) : List Bytes := ops.filterMap fun
  | .datagram x b _ => if x = d then some b else none
  | _ => none

/-- What happens to the socket of a stream: it is answered, dropped, given to the stream manager or made a listener. -/
def ends (sock : Sock) : Out D → Bool
  | .answer s _ => s == sock
  | .dropped s => s == sock
  | .opened _ s => s == sock
  | .listens s => s == sock
  | _ => false

/-- A client wants a stream or listens with a socket. -/
def begins (sock : Sock) : Op D → Bool
  | .connect s _ _ => s == sock
  | .listen s => s == sock
  | _ => false

/-! ## C175 -/

theorem sentTo_append (d : D) (a b : List (Out D)) : sentTo d (a ++ b) = sentTo d a ++ sentTo d b := List.filterMap_append

/-- Datagrams for a destination that wait for its lease set. -/
def State.queued (s : State D) (d : D) : List Bytes := (s.entry d).datagrams.getD []

/-- What has to do with datagrams. -/
structure Keeps (s t : State D) : Prop where
  queued : ∀ d, t.queued d = s.queued d
  sent : ∀ d, sentTo d t.out = sentTo d s.out

theorem Keeps.rfl (s : State D) : Keeps s s := ⟨fun _ => Eq.refl _, fun _ => Eq.refl _⟩

theorem Keeps.trans {s t u : State D} (h : Keeps s t) (h' : Keeps t u) : Keeps s u :=
  ⟨fun d => (h'.queued d).trans (h.queued d), fun d => (h'.sent d).trans (h.sent d)⟩

theorem keeps_log (s : State D) (o : Out D) (ho : ∀ x b, o ≠ .datagram x b) : Keeps s (s.log o) := by
  refine ⟨fun _ => Eq.refl _, fun d => ?_⟩
  show sentTo d (s.out ++ [o]) = _
  rw [sentTo_append]
  cases o with
  | datagram x b => exact absurd (Eq.refl _) (ho x b)
  | _ => exact List.append_nil _

theorem keeps_fold {α : Type} (f : State D → α → State D) (hf : ∀ u a, Keeps u (f u a)) (l : List α) (s : State D) : Keeps s (l.foldl f s) := by
  induction l generalizing s with
  | nil => exact .rfl s
  | cons a l ih => exact (hf s a).trans (ih _)

theorem keeps_say (s : State D) (n t : Str) : Keeps s (s.say n t) := by
  unfold State.say
  split
  · exact keeps_log _ _ (fun x b h => by cases h)
  · exact .rfl s

theorem keeps_tell (s : State D) (d : D) (t : Str → Str) : Keeps s (s.tell d t) := by
  unfold State.tell
  split
  · have h : Keeps s { s with hosts := s.hosts.del d } := ⟨fun _ => rfl, fun _ => rfl⟩
    exact h.trans (keeps_say _ _ _)
  · exact .rfl s

theorem keeps_ask (s : State D) (d : D) (c : Bool) : Keeps s (s.ask d c).2 := by
  unfold State.ask
  split
  · exact .rfl s
  · split
    · exact .rfl s
    · exact ⟨fun _ => rfl, fun _ => rfl⟩

/-- Streams are added to the entry of a destination. -/
theorem queued_put (s : State D) (d x : D) (l : List Wait) :
    (((s.pending.put d { s.entry d with streams := l }).get x).getD ⟨[], none⟩).datagrams.getD [] = s.queued x := by
  rw [AMap.get_put]
  by_cases h : x = d
  · rw [if_pos h, h]
    rfl
  · rw [if_neg h]
    rfl

theorem keeps_open (s : State D) (d : D) (sock : Sock) : Keeps s (s.openStream d sock) := by
  unfold State.openStream
  refine ⟨fun x => ?_, fun x => ?_⟩
  · exact queued_put s d x _
  · show sentTo x (s.out ++ [_]) = _
    rw [sentTo_append]
    exact List.append_nil _

theorem sent_fold (e : Env D) (d x : D) (l : List Bytes) (s : State D) :
    sentTo x (l.foldl (fun s data => s.log (.datagram d (e.make data))) s).out = sentTo x s.out ++ if d = x then l.map e.make else [] := by
  induction l generalizing s with
  | nil =>
    split <;> exact (List.append_nil _).symm
  | cons a l ih =>
    rw [List.foldl_cons, ih]
    show sentTo x (s.out ++ [_]) ++ _ = _
    rw [sentTo_append]
    by_cases h : d = x
    · rw [if_pos h, if_pos h, List.append_assoc]
      congr 1
      show List.filterMap _ _ ++ _ = _
      simp [h]
    · rw [if_neg h, if_neg h, List.append_nil]
      show _ ++ List.filterMap _ _ = _
      simp [h]

theorem queued_fold (e : Env D) (d x : D) (l : List Bytes) (s : State D) : (l.foldl (fun s data => s.log (.datagram d (e.make data))) s).queued x = s.queued x := by
  induction l generalizing s with
  | nil => rfl
  | cons a l ih => exact ih _

/-- What waits for a lease set is sent when it is found. -/
theorem serve_queued (e : Env D) (s : State D) (d x : D) :
    (s.serve e d).queued x = (if x = d then [] else s.queued x) ∧ sentTo x (s.serve e d).out = sentTo x s.out ++ if d = x then (s.queued d).map e.make else [] := by
  unfold State.serve
  rw [queued_fold, sent_fold]
  have h := keeps_fold (fun s sock => s.openStream d sock) (fun u a => keeps_open u d a) (s.entry d).socks (s.take d)
  rw [h.queued, h.sent]
  refine ⟨?_, rfl⟩
  show (((s.pending.del d).get x).getD ⟨[], none⟩).datagrams.getD [] = _
  rw [AMap.get_del]
  split <;> rfl

theorem refuse_queued (s : State D) (d x : D) : (s.refuse d).queued x = (if x = d then [] else s.queued x) ∧ sentTo x (s.refuse d).out = sentTo x s.out := by
  unfold State.refuse
  have h1 := keeps_fold (fun (s : State D) (_ : Wait) => s.log (.removed d)) (fun u a => keeps_log u _ (fun x b h => by cases h)) ((s.entry d).streams.filter (· = .session)) (s.take d)
  have h2 := keeps_fold (fun (s : State D) (sock : Sock) => s.log (.answer sock "STREAM STATUS RESULT=CANT_REACH_PEER".toList)) (fun u a => keeps_log u _ (fun x b h => by cases h)) (s.entry d).socks
    (List.foldl (fun (s : State D) (_ : Wait) => s.log (.removed d)) (s.take d) ((s.entry d).streams.filter (· = .session)))
  have h := h1.trans h2
  rw [h.queued, h.sent]
  refine ⟨?_, rfl⟩
  show (((s.pending.del d).get x).getD ⟨[], none⟩).datagrams.getD [] = _
  rw [AMap.get_del]
  split <;> rfl

theorem keeps_lookup (e : Env D) (s : State D) (n : Str) (c : Option Str) : Keeps s (s.lookup e n c) := by
  unfold State.lookup
  split
  · exact keeps_say _ _ _
  · split
    · exact keeps_say _ _ _
    · rename_i y _
      have hs := keeps_ask s y c.isSome
      split <;> (rename_i s' he; rw [he] at hs; dsimp only at hs)
      · exact hs.trans (keeps_say _ _ _)
      · exact hs.trans ⟨fun _ => rfl, fun _ => rfl⟩
  · exact keeps_say _ _ _
  · split
    · exact ⟨fun _ => rfl, fun _ => rfl⟩
    · exact keeps_say _ _ _
  · exact .rfl s

theorem lookup_queries (e : Env D) (s : State D) (n : Str) (c : Option Str) (d : D) (h : d ∈ s.queries) : d ∈ (s.lookup e n c).queries := by
  unfold State.lookup
  split
  · rw [say_queries]
    exact h
  · split
    · rw [say_queries]
      exact h
    · rename_i y _
      have hq := ask_queries s y d c.isSome h
      split <;> (rename_i s' he; rw [he] at hq; dsimp only at hq)
      · rw [say_queries]
        exact hq
      · exact hq
  · rw [say_queries]
    exact h
  · split
    · exact h
    · rw [say_queries]
      exact h
  · exact h

/-- Sent and waiting datagrams are those that were given, and there is a query as long as any wait. -/
structure Flow (e : Env D) (ops : List (Op D)) (d : D) (s : State D) : Prop where
  flow : sentTo d s.out ++ (s.queued d).map e.make = (givenTo d ops).map e.make
  query : s.queued d ≠ [] → d ∈ s.queries

theorem Flow.keepAt {e : Env D} {ops : List (Op D)} {d : D} {s t : State D} (h : Flow e ops d s) (h1 : t.queued d = s.queued d) (h2 : sentTo d t.out = sentTo d s.out)
    (hq : d ∈ s.queries → d ∈ t.queries) (o : Op D) (ho : givenTo d [o] = []) : Flow e (ops ++ [o]) d t := by
  have hg : givenTo d (ops ++ [o]) = givenTo d ops := by
    unfold givenTo at ho ⊢
    rw [List.filterMap_append, ho, List.append_nil]
  refine ⟨?_, ?_⟩
  · rw [h2, h1, hg]
    exact h.flow
  · rw [h1]
    exact fun hn => hq (h.query hn)

theorem Flow.keep {e : Env D} {ops : List (Op D)} {d : D} {s t : State D} (h : Flow e ops d s) (hk : Keeps s t) (hq : d ∈ s.queries → d ∈ t.queries) (o : Op D) (ho : givenTo d [o] = []) :
    Flow e (ops ++ [o]) d t := h.keepAt (hk.queued d) (hk.sent d) hq o ho

theorem forget_queued (s : State D) (d x : D) : (s.forget d).queued x = (if x = d then [] else s.queued x) ∧ sentTo x (s.forget d).out = sentTo x s.out := by
  unfold State.forget
  have h := keeps_fold (fun (s : State D) (sock : Sock) => s.log (.dropped sock)) (fun u a => keeps_log u _ (fun x b h => by cases h)) (s.entry d).socks { s with pending := s.pending.del d }
  rw [h.queued, h.sent]
  refine ⟨?_, rfl⟩
  show (((s.pending.del d).get x).getD ⟨[], none⟩).datagrams.getD [] = _
  rw [AMap.get_del]
  split <;> rfl

theorem forget_queries (s : State D) (d : D) : (s.forget d).queries = s.queries := by
  unfold State.forget
  rw [fold_queries _ (by intro u a; rfl)]

theorem Flow.step {e : Env D} {ops : List (Op D)} {d : D} {s : State D} (h : Flow e ops d s) (hk : e.kind ≠ .stream) (o : Op D)
    (ho : o ≠ .notFound d ∧ o ≠ .streamOpened d ∧ o ≠ .streamRejected d) : Flow e (ops ++ [o]) d (s.step e o) := by
  cases o with
  | lookup n c =>
    refine h.keep ?_ ?_ _ rfl
    · show Keeps s (if s.socket then s.lookup e n c else s)
      split
      · exact keeps_lookup e s n c
      · exact .rfl s
    · show _ → d ∈ (if s.socket then s.lookup e n c else s).queries
      split
      · exact lookup_queries e s n c d
      · exact id
  | resolved k r =>
    have hsay : ∀ n t, Keeps s ({ s with books := s.books.eraseIdx k }.say n t) := by
      intro n t
      have h : Keeps s { s with books := s.books.eraseIdx k } := ⟨fun _ => rfl, fun _ => rfl⟩
      exact h.trans (keeps_say _ _ _)
    refine h.keep ?_ ?_ _ rfl
    · show Keeps s (s.resolved k r)
      unfold State.resolved
      split
      · exact .rfl s
      · dsimp only
        split <;> exact hsay _ _
    · show _ → d ∈ (s.resolved k r).queries
      unfold State.resolved
      split
      · exact id
      · dsimp only
        split <;> (rw [say_queries]; exact id)
  | connect sock x c =>
    have he : s.step e (.connect sock x c) = s.log (.dropped sock) := by
      show s.connect e sock x c = _
      unfold State.connect
      rw [if_pos hk]
    rw [he]
    exact h.keep (keeps_log _ _ (fun x b h => by cases h)) id _ rfl
  | listen sock =>
    have he : s.step e (.listen sock) = s.log (.dropped sock) := by
      show s.listen e sock = _
      unfold State.listen
      rw [if_pos hk]
    rw [he]
    exact h.keep (keeps_log _ _ (fun x b h => by cases h)) id _ rfl
  | datagram x b c =>
    show Flow e _ d (s.datagram e x b c)
    unfold State.datagram
    rw [if_neg hk]
    by_cases hx : x = d
    · subst hx
      have hg : givenTo x (ops ++ [.datagram x b c]) = givenTo x ops ++ [b] := by
        unfold givenTo
        rw [List.filterMap_append]
        simp
      unfold State.ask
      by_cases hq : x ∈ s.queries
      · rw [if_pos hq]
        refine ⟨?_, fun _ => hq⟩
        have hqd : State.queued { s with pending := s.pending.put x { s.entry x with datagrams := some (((s.entry x).datagrams.getD []) ++ [b]) } } x = s.queued x ++ [b] := by
          show (((s.pending.put x _).get x).getD ⟨[], none⟩).datagrams.getD [] = _
          rw [AMap.get_put, if_pos rfl]
          rfl
        dsimp only
        rw [hqd, hg, List.map_append, List.map_append, ← h.flow, List.append_assoc]
      · have hn : s.queued x = [] := by
          cases hc : s.queued x with
          | nil => rfl
          | cons a l => exact absurd (h.query (by rw [hc]; simp)) hq
        rw [if_neg hq]
        cases c with
        | true =>
          refine ⟨?_, fun hne => absurd hn hne⟩
          show sentTo x (s.out ++ [_]) ++ (s.queued x).map e.make = _
          have hf := h.flow
          rw [hn] at hf ⊢
          rw [sentTo_append, hg, List.map_append, ← hf]
          simp [sentTo]
        | false =>
          refine ⟨?_, fun _ => List.mem_cons_self⟩
          have hqd : State.queued { s with queries := x :: s.queries, pending := s.pending.put x { s.entry x with datagrams := some (((s.entry x).datagrams.getD []) ++ [b]) } } x = s.queued x ++ [b] := by
            show (((s.pending.put x _).get x).getD ⟨[], none⟩).datagrams.getD [] = _
            rw [AMap.get_put, if_pos rfl]
            rfl
          show sentTo x s.out ++ (State.queued { s with queries := x :: s.queries, pending := s.pending.put x { s.entry x with datagrams := some (((s.entry x).datagrams.getD []) ++ [b]) } } x).map e.make = _
          rw [hqd, hg, List.map_append, List.map_append, ← h.flow, List.append_assoc]
    · have hg : givenTo d [Op.datagram x b c] = [] := by
        unfold givenTo
        simp [hx]
      have ha := keeps_ask s x c
      have hqs := ask_queries s x d c
      split <;> (rename_i s' he; rw [he] at ha hqs; dsimp only at ha hqs)
      · refine h.keepAt (t := s'.log (.datagram x (e.make b))) (ha.queued d) ?_ hqs _ hg
        show sentTo d (s'.out ++ [_]) = _
        rw [sentTo_append, ha.sent]
        simp [sentTo, hx]
      · refine h.keepAt (t := { s' with pending := s'.pending.put x { s'.entry x with datagrams := some ((s'.entry x).datagrams.getD [] ++ [b]) } }) ?_ (ha.sent d) hqs _ hg
        rw [← ha.queued d]
        show (((s'.pending.put x _).get d).getD ⟨[], none⟩).datagrams.getD [] = _
        rw [AMap.get_put, if_neg (fun e => hx e.symm)]
        rfl
  | query x c => exact h.keep (keeps_ask s x c) (ask_queries s x d c) _ rfl
  | found x v =>
    show Flow e _ d (s.found e x v)
    unfold State.found
    split
    · have ht := keeps_tell (s.serve e x) x (fun n => okText n v)
      obtain ⟨h1, h2⟩ := serve_queued e s x d
      have hg : givenTo d (ops ++ [.found x v]) = givenTo d ops := by
        unfold givenTo
        rw [List.filterMap_append]
        exact List.append_nil _
      refine ⟨?_, ?_⟩
      · rw [ht.sent, ht.queued, h1, h2, hg, ← h.flow]
        by_cases hx : x = d
        · rw [if_pos hx, if_pos hx.symm, hx]
          simp
        · rw [if_neg hx, if_neg (fun e => hx e.symm)]
          simp
      · rw [ht.queued, h1, tell_queries, serve_queries]
        by_cases hx : d = x
        · rw [if_pos hx]
          exact fun h => absurd rfl h
        · rw [if_neg hx]
          exact fun hn => List.mem_filter.mpr ⟨h.query hn, by simpa using hx⟩
    · exact h.keep (.rfl s) id _ rfl
  | notFound x =>
    have hx : x ≠ d := fun e => ho.1 (by rw [e])
    show Flow e _ d (s.notFound x)
    unfold State.notFound
    split
    · have ht := keeps_tell (s.refuse x) x missingText
      obtain ⟨h1, h2⟩ := refuse_queued s x d
      have hg : givenTo d (ops ++ [.notFound x]) = givenTo d ops := by
        unfold givenTo
        rw [List.filterMap_append]
        exact List.append_nil _
      refine ⟨?_, ?_⟩
      · rw [ht.sent, ht.queued, h1, h2, hg, ← h.flow, if_neg (fun e => hx e.symm)]
      · rw [ht.queued, h1, tell_queries, refuse_queries, if_neg (fun e => hx e.symm)]
        exact fun hn => List.mem_filter.mpr ⟨h.query hn, by simpa using hx.symm⟩
    · exact h.keep (.rfl s) id _ rfl
  | streamOpened x =>
    have hx : d ≠ x := fun e => ho.2.1 (by rw [e])
    obtain ⟨h1, h2⟩ := forget_queued s x d
    rw [if_neg hx] at h1
    exact h.keepAt h1 h2 (by rw [forget_queries]; exact id) _ rfl
  | streamRejected x =>
    have hx : d ≠ x := fun e => ho.2.2 (by rw [e])
    obtain ⟨h1, h2⟩ := forget_queued s x d
    rw [if_neg hx] at h1
    exact h.keepAt h1 h2 (by rw [forget_queries]; exact id) _ rfl
  | close => exact h.keep (t := { s with socket := false }) ⟨fun _ => rfl, fun _ => rfl⟩ id .close rfl

/-- In a session for datagrams, the datagrams for a destination are sent in the order in which the client gave them, each once, as long as no lease set of the destination
was looked for in vain; what has not been sent waits for the lease set. Such a session has no streams and hence no events of streams. -/
theorem C175_order (e : Env D) (hk : e.kind ≠ .stream) (d : D) (ops : List (Op D)) (ho : ∀ o ∈ ops, o ≠ .notFound d ∧ o ≠ .streamOpened d ∧ o ≠ .streamRejected d) :
    sentTo d (State.run e State.new ops).out ++ ((State.run e State.new ops).queued d).map e.make = (givenTo d ops).map e.make ∧
    ((State.run e State.new ops).queued d ≠ [] → d ∈ (State.run e State.new ops).queries) := by
  have key : ∀ (ops pre : List (Op D)) (s : State D), Flow e pre d s → (∀ o ∈ ops, o ≠ .notFound d ∧ o ≠ .streamOpened d ∧ o ≠ .streamRejected d) → Flow e (pre ++ ops) d (s.run e ops) := by
    intro ops
    induction ops with
    | nil => intro pre s h _; rw [List.append_nil]; exact h
    | cons o ops ih =>
      intro pre s h ho
      have := ih (pre ++ [o]) (s.step e o) (h.step hk o (ho o List.mem_cons_self)) (fun o' h' => ho o' (List.mem_cons_of_mem _ h'))
      rw [List.append_assoc] at this
      exact this
  have h := key ops [] State.new ⟨rfl, fun h => absurd rfl h⟩ ho
  exact ⟨h.flow, h.query⟩

/-- When the lease set is found all that waited is sent. -/
theorem C175_sent (e : Env D) (s : State D) (d : D) (v : Str) (hq : d ∈ s.queries) :
    (s.step e (.found d v)).queued d = [] ∧ sentTo d (s.step e (.found d v)).out = sentTo d s.out ++ (s.queued d).map e.make := by
  show (s.found e d v).queued d = [] ∧ sentTo d (s.found e d v).out = _
  unfold State.found
  rw [if_pos hq]
  have ht := keeps_tell (s.serve e d) d (fun n => okText n v)
  obtain ⟨h1, h2⟩ := serve_queued e s d d
  rw [ht.queued, ht.sent, h1, h2, if_pos rfl, if_pos rfl]
  exact ⟨rfl, rfl⟩

/-- A session for datagrams opens no stream, and a session for streams sends no datagram. -/
theorem C175_kinds (e : Env D) (s : State D) (sock : Sock) (d : D) (b : Bytes) (c : Bool) :
    (e.kind ≠ .stream → s.step e (.connect sock d c) = s.log (.dropped sock) ∧ s.step e (.listen sock) = s.log (.dropped sock)) ∧
    (e.kind = .stream → s.step e (.datagram d b c) = s) := by
  refine ⟨fun h => ⟨?_, ?_⟩, fun h => ?_⟩
  · show s.connect e sock d c = _
    unfold State.connect
    rw [if_pos h]
  · show s.listen e sock = _
    unfold State.listen
    rw [if_pos h]
  · show s.datagram e d b c = _
    unfold State.datagram
    rw [if_pos h]

/-! ## C176 -/

/-- How many sockets of that name wait for a lease set. -/
def waiting (sock : Sock) (m : AMap D Pending) : Nat := (m.map fun p => p.2.socks.count sock).sum

/-- What became of a socket. -/
def fate (sock : Sock) (s : State D) : Nat := s.out.countP (ends sock) + waiting sock s.pending

theorem waiting_del (sock : Sock) (m : AMap D Pending) (hm : m.Ok) (d : D) : waiting sock m = ((m.get d).getD ⟨[], none⟩).socks.count sock + waiting sock (m.del d) := by
  induction m with
  | nil => rfl
  | cons x m ih =>
    have hm' : AMap.Ok m := (List.nodup_cons.mp hm).2
    have hx : x.1 ∉ m.map (·.1) := (List.nodup_cons.mp hm).1
    rw [AMap.get_cons]
    by_cases h : x.1 = d
    · rw [if_pos h]
      have hn : AMap.get m d = none := by
        cases hg : AMap.get m d with
        | none => rfl
        | some v => exact absurd (List.mem_map.mpr ⟨_, AMap.get_mem hg, h.symm⟩) hx
      have he : AMap.del (x :: m) d = AMap.del m d := by
        unfold AMap.del
        rw [List.filter_cons, if_neg (by simp [h])]
      have := ih hm'
      rw [hn] at this
      rw [he]
      show List.count sock x.2.socks + waiting sock m = _
      rw [this]
      have h0 : List.count sock (Pending.socks ((none : Option Pending).getD ⟨[], none⟩)) = 0 := rfl
      rw [h0, Nat.zero_add]
      rfl
    · rw [if_neg h]
      have he : AMap.del (x :: m) d = x :: AMap.del m d := by
        unfold AMap.del
        rw [List.filter_cons, if_pos (by simp [h])]
      rw [he]
      show List.count sock x.2.socks + waiting sock m = _ + (List.count sock x.2.socks + waiting sock (AMap.del m d))
      rw [ih hm']
      omega

theorem waiting_put (sock : Sock) (m : AMap D Pending) (d : D) (p : Pending) : waiting sock (m.put d p) = p.socks.count sock + waiting sock (m.del d) := rfl

theorem socks_session (p : Pending) : ({ p with streams := p.streams ++ [.session] } : Pending).socks = p.socks := by
  unfold Pending.socks
  rw [List.filterMap_append]
  exact List.append_nil _

theorem socks_leaseSet (p : Pending) (sock : Sock) : ({ p with streams := p.streams ++ [.leaseSet sock] } : Pending).socks = p.socks ++ [sock] := by
  unfold Pending.socks
  rw [List.filterMap_append]
  rfl

theorem fate_log (sock : Sock) (s : State D) (o : Out D) : fate sock (s.log o) = fate sock s + if ends sock o then 1 else 0 := by
  unfold fate State.log
  dsimp only
  rw [List.countP_append, List.countP_singleton]
  omega

theorem fate_open (sock : Sock) (s : State D) (hm : s.pending.Ok) (d : D) (k : Sock) : fate sock (s.openStream d k) = fate sock s + (if k = sock then 1 else 0) ∧ (s.openStream d k).pending.Ok := by
  unfold State.openStream
  rw [fate_log]
  refine ⟨?_, AMap.ok_put hm _ _⟩
  unfold fate
  dsimp only
  rw [waiting_put, socks_session, waiting_del sock s.pending hm d]
  unfold State.entry
  have : ends sock (.opened d k : Out D) = (k == sock) := rfl
  rw [this]
  simp only [beq_iff_eq]

theorem count_one (sock k : Sock) (l : List Sock) : (k :: l).count sock = l.count sock + if k = sock then 1 else 0 := by
  rw [List.count_cons]
  simp only [beq_iff_eq]

/-- Sockets that are given to the stream manager, one after the other. -/
theorem fate_opens (sock : Sock) (d : D) (l : List Sock) (s : State D) (hm : s.pending.Ok) :
    fate sock (l.foldl (fun s k => s.openStream d k) s) = fate sock s + l.count sock ∧ (l.foldl (fun s k => s.openStream d k) s).pending.Ok := by
  induction l generalizing s with
  | nil => exact ⟨rfl, hm⟩
  | cons k l ih =>
    obtain ⟨h1, h2⟩ := fate_open sock s hm d k
    obtain ⟨h3, h4⟩ := ih (s.openStream d k) h2
    refine ⟨?_, h4⟩
    rw [List.foldl_cons, h3, h1, count_one]
    omega

theorem fate_logs {α : Type} (sock : Sock) (f : α → Out D) (l : List α) (s : State D) :
    fate sock (l.foldl (fun s a => s.log (f a)) s) = fate sock s + l.countP (fun a => ends sock (f a)) ∧ (l.foldl (fun s a => s.log (f a)) s).pending = s.pending := by
  induction l generalizing s with
  | nil => exact ⟨rfl, rfl⟩
  | cons a l ih =>
    obtain ⟨h1, h2⟩ := ih (s.log (f a))
    refine ⟨?_, h2⟩
    rw [List.foldl_cons, h1, fate_log, List.countP_cons]
    omega

theorem fate_take (sock : Sock) (s : State D) (hm : s.pending.Ok) (d : D) : fate sock s = fate sock (s.take d) + (s.entry d).socks.count sock := by
  unfold fate State.take
  dsimp only
  rw [waiting_del sock s.pending hm d]
  unfold State.entry
  omega

theorem fate_say (sock : Sock) (s : State D) (n t : Str) : fate sock (s.say n t) = fate sock s ∧ (s.say n t).pending = s.pending := by
  unfold State.say
  split
  · rw [fate_log]
    exact ⟨rfl, rfl⟩
  · exact ⟨rfl, rfl⟩

theorem fate_tell (sock : Sock) (s : State D) (d : D) (t : Str → Str) : fate sock (s.tell d t) = fate sock s ∧ (s.tell d t).pending = s.pending := by
  unfold State.tell
  split
  · exact fate_say sock { s with hosts := s.hosts.del d } _ _
  · exact ⟨rfl, rfl⟩

theorem fate_ask (sock : Sock) (s : State D) (d : D) (c : Bool) : fate sock (s.ask d c).2 = fate sock s ∧ (s.ask d c).2.pending = s.pending := by
  unfold State.ask
  split
  · exact ⟨rfl, rfl⟩
  · split <;> exact ⟨rfl, rfl⟩

theorem countP_false {α : Type} (l : List α) : l.countP (fun _ => false) = 0 := by
  induction l with
  | nil => rfl
  | cons a l ih => rw [List.countP_cons, ih]; rfl

theorem countP_beq (sock : Sock) (l : List Sock) : l.countP (fun a => a == sock) = l.count sock := rfl

theorem fate_step (e : Env D) (sock : Sock) (s : State D) (hm : s.pending.Ok) (o : Op D) :
    fate sock (s.step e o) = fate sock s + (if begins sock o then 1 else 0) ∧ (s.step e o).pending.Ok := by
  cases o with
  | lookup n c =>
    show fate sock (if s.socket then s.lookup e n c else s) = fate sock s ∧ (if s.socket then s.lookup e n c else s).pending.Ok
    have hsay : ∀ (u : State D) t, fate sock u = fate sock s → u.pending = s.pending → fate sock (u.say n t) = fate sock s ∧ (u.say n t).pending.Ok := by
      intro u t h1 h2
      obtain ⟨a, b⟩ := fate_say sock u n t
      exact ⟨a.trans h1, by rw [b, h2]; exact hm⟩
    split
    · unfold State.lookup
      split
      · exact hsay s _ rfl rfl
      · split
        · exact hsay s _ rfl rfl
        · rename_i y _
          obtain ⟨h1, h2⟩ := fate_ask sock s y c.isSome
          split <;> (rename_i s' he; rw [he] at h1 h2; dsimp only at h1 h2)
          · exact hsay s' _ h1 h2
          · exact ⟨h1, h2 ▸ hm⟩
      · exact hsay s _ rfl rfl
      · split
        · exact ⟨rfl, hm⟩
        · exact hsay s _ rfl rfl
      · exact ⟨rfl, hm⟩
    · exact ⟨rfl, hm⟩
  | resolved k r =>
    show fate sock (s.resolved k r) = fate sock s ∧ (s.resolved k r).pending.Ok
    unfold State.resolved
    split
    · exact ⟨rfl, hm⟩
    · dsimp only
      rename_i n _
      have hsay : ∀ t, fate sock ({ s with books := s.books.eraseIdx k }.say n t) = fate sock s ∧ ({ s with books := s.books.eraseIdx k }.say n t).pending.Ok := by
        intro t
        obtain ⟨a, b⟩ := fate_say sock { s with books := s.books.eraseIdx k } n t
        exact ⟨a, by rw [b]; exact hm⟩
      split
      · exact hsay _
      · exact hsay _
  | connect k d c =>
    show fate sock (s.connect e k d c) = fate sock s + (if k == sock then 1 else 0) ∧ (s.connect e k d c).pending.Ok
    unfold State.connect
    split
    · rw [fate_log]
      exact ⟨rfl, hm⟩
    split
    · rw [fate_log]
      exact ⟨rfl, hm⟩
    obtain ⟨h1, h2⟩ := fate_ask sock s d c
    split <;> (rename_i s' he; rw [he] at h1 h2; dsimp only at h1 h2)
    · obtain ⟨h3, h4⟩ := fate_open sock s' (h2 ▸ hm) d k
      rw [h3, h1]
      exact ⟨by simp only [beq_iff_eq], h4⟩
    · have hm' : s'.pending.Ok := h2 ▸ hm
      refine ⟨?_, AMap.ok_put hm' _ _⟩
      rw [← h1]
      unfold fate
      dsimp only
      rw [waiting_put, socks_leaseSet, waiting_del sock s'.pending hm' d, List.count_append, List.count_singleton]
      unfold State.entry
      omega
  | listen k =>
    show fate sock (s.listen e k) = fate sock s + (if k == sock then 1 else 0) ∧ (s.listen e k).pending.Ok
    unfold State.listen
    split <;> (rw [fate_log]; exact ⟨rfl, hm⟩)
  | datagram d b c =>
    show fate sock (s.datagram e d b c) = fate sock s ∧ (s.datagram e d b c).pending.Ok
    unfold State.datagram
    split
    · exact ⟨rfl, hm⟩
    obtain ⟨h1, h2⟩ := fate_ask sock s d c
    split <;> (rename_i s' he; rw [he] at h1 h2; dsimp only at h1 h2)
    · rw [fate_log]
      exact ⟨h1, h2 ▸ hm⟩
    · have hm' : s'.pending.Ok := h2 ▸ hm
      refine ⟨?_, AMap.ok_put hm' _ _⟩
      rw [← h1]
      unfold fate
      dsimp only
      rw [waiting_put, waiting_del sock s'.pending hm' d]
      rfl
  | query d c =>
    obtain ⟨h1, h2⟩ := fate_ask sock s d c
    exact ⟨h1, h2 ▸ hm⟩
  | found d v =>
    show fate sock (s.found e d v) = fate sock s ∧ (s.found e d v).pending.Ok
    unfold State.found
    split
    · obtain ⟨h1, h2⟩ := fate_tell sock (s.serve e d) d (fun n => okText n v)
      rw [h1, h2, fate_take sock s hm d]
      unfold State.serve
      obtain ⟨h3, h4⟩ := fate_opens sock d (s.entry d).socks (s.take d) (AMap.ok_del hm d)
      obtain ⟨h5, h6⟩ := fate_logs sock (fun data => Out.datagram d (e.make data)) ((s.entry d).datagrams.getD []) (List.foldl (fun s k => s.openStream d k) (s.take d) (s.entry d).socks)
      rw [h5, h6, h3]
      refine ⟨?_, h4⟩
      show _ + List.countP (fun _ => false) _ = _
      rw [countP_false]
      rfl
    · exact ⟨rfl, hm⟩
  | notFound d =>
    show fate sock (s.notFound d) = fate sock s ∧ (s.notFound d).pending.Ok
    unfold State.notFound
    split
    · obtain ⟨h1, h2⟩ := fate_tell sock (s.refuse d) d missingText
      rw [h1, h2, fate_take sock s hm d]
      unfold State.refuse
      obtain ⟨h3, h4⟩ := fate_logs sock (fun _ : Wait => Out.removed d) ((s.entry d).streams.filter (· = .session)) (s.take d)
      obtain ⟨h5, h6⟩ := fate_logs sock (fun k : Sock => (Out.answer k "STREAM STATUS RESULT=CANT_REACH_PEER".toList : Out D)) (s.entry d).socks
        (List.foldl (fun s _ => s.log (.removed d)) (s.take d) ((s.entry d).streams.filter (· = .session)))
      rw [h5, h6, h3, h4]
      refine ⟨?_, AMap.ok_del hm d⟩
      show _ + List.countP (fun _ => false) _ + List.countP (fun a => a == sock) _ = _
      rw [countP_false, countP_beq]
      rfl
    · exact ⟨rfl, hm⟩
  | streamOpened d =>
    show fate sock (s.forget d) = fate sock s ∧ (s.forget d).pending.Ok
    unfold State.forget
    obtain ⟨h5, h6⟩ := fate_logs sock (fun k : Sock => (Out.dropped k : Out D)) (s.entry d).socks { s with pending := s.pending.del d }
    rw [h5, h6, fate_take sock s hm d]
    refine ⟨?_, AMap.ok_del hm d⟩
    show _ + List.countP (fun a => a == sock) _ = _
    rw [countP_beq]
    rfl
  | streamRejected d =>
    show fate sock (s.forget d) = fate sock s ∧ (s.forget d).pending.Ok
    unfold State.forget
    obtain ⟨h5, h6⟩ := fate_logs sock (fun k : Sock => (Out.dropped k : Out D)) (s.entry d).socks { s with pending := s.pending.del d }
    rw [h5, h6, fate_take sock s hm d]
    refine ⟨?_, AMap.ok_del hm d⟩
    show _ + List.countP (fun a => a == sock) _ = _
    rw [countP_beq]
    rfl
  | close => exact ⟨rfl, hm⟩

theorem run_ok (e : Env D) (ops : List (Op D)) (s : State D) (hm : s.pending.Ok) (sock : Sock) :
    fate sock (s.run e ops) = fate sock s + ops.countP (begins sock) ∧ (s.run e ops).pending.Ok := by
  induction ops generalizing s with
  | nil => exact ⟨rfl, hm⟩
  | cons o ops ih =>
    obtain ⟨h1, h2⟩ := fate_step e sock s hm o
    obtain ⟨h3, h4⟩ := ih (s.step e o) h2
    refine ⟨?_, h4⟩
    show fate sock (State.run e (s.step e o) ops) = _
    rw [h3, h1, List.countP_cons]
    omega

/-- Every socket with which a client wants a stream is given to the stream manager, answered, made a listener or dropped exactly once, or it still waits for a lease set. -/
theorem C176_once (e : Env D) (ops : List (Op D)) (sock : Sock) :
    (State.run e State.new ops).out.countP (ends sock) + waiting sock (State.run e State.new ops).pending = ops.countP (begins sock) := by
  have := (run_ok e ops State.new List.nodup_nil sock).1
  have h0 : fate sock (State.new : State D) = 0 := rfl
  rw [h0, Nat.zero_add] at this
  exact this

theorem out_fold_open (d : D) (l : List Sock) (s : State D) : (l.foldl (fun s k => s.openStream d k) s).out = s.out ++ l.map (Out.opened d) := by
  induction l generalizing s with
  | nil => exact (List.append_nil _).symm
  | cons k l ih =>
    rw [List.foldl_cons, ih]
    show (s.out ++ [_]) ++ _ = _
    rw [List.append_assoc]
    rfl

theorem out_fold_log {α : Type} (f : α → Out D) (l : List α) (s : State D) : (l.foldl (fun s a => s.log (f a)) s).out = s.out ++ l.map f := by
  induction l generalizing s with
  | nil => exact (List.append_nil _).symm
  | cons a l ih =>
    rw [List.foldl_cons, ih]
    show (s.out ++ [_]) ++ _ = _
    rw [List.append_assoc]
    rfl

/-- A stream is opened at once if the lease set is there. Otherwise its socket waits; when the lease set is found all that wait are opened, in order. -/
theorem C176_opened_partial (e : Env D) (s : State D) (d : D) (sock : Sock) (c : Bool) (hk : e.kind = .stream) (hd : d ≠ e.me) :
    (c = true → d ∉ s.queries → (s.step e (.connect sock d c)).out = s.out ++ [.opened d sock]) ∧
    (d ∈ s.queries ∨ c = false → (s.step e (.connect sock d c)).out = s.out ∧ ((s.step e (.connect sock d c)).entry d).socks = (s.entry d).socks ++ [sock] ∧ d ∈ (s.step e (.connect sock d c)).queries) ∧
    (∀ v, d ∈ s.queries → ∃ rest, (s.step e (.found d v)).out = s.out ++ (s.entry d).socks.map (Out.opened d) ++ rest ∧ ∀ k, (rest.countP (ends k)) = 0) := by
  refine ⟨?_, ?_, ?_⟩
  · intro hc hq
    show (s.connect e sock d c).out = _
    unfold State.connect State.ask
    rw [if_neg (by simp [hk]), if_neg hd, if_neg hq, if_pos hc]
    rfl
  · intro h
    show (s.connect e sock d c).out = _ ∧ ((s.connect e sock d c).entry d).socks = _ ∧ d ∈ (s.connect e sock d c).queries
    unfold State.connect State.ask
    rw [if_neg (by simp [hk]), if_neg hd]
    by_cases hq : d ∈ s.queries
    · rw [if_pos hq]
      refine ⟨rfl, ?_, hq⟩
      rw [← socks_leaseSet]
      show (((s.pending.put d _).get d).getD _).socks = _
      rw [AMap.get_put, if_pos rfl]
      rfl
    · rw [if_neg hq, if_neg (by rcases h with h | h; exacts [absurd h hq, by simp [h]])]
      refine ⟨rfl, ?_, List.mem_cons_self⟩
      rw [← socks_leaseSet]
      show (((s.pending.put d _).get d).getD _).socks = _
      rw [AMap.get_put, if_pos rfl]
      rfl
  · intro v hq
    show ∃ rest, (s.found e d v).out = _ ∧ _
    unfold State.found
    rw [if_pos hq]
    have hserve : (s.serve e d).out = s.out ++ (s.entry d).socks.map (Out.opened d) ++ (s.queued d).map (fun b => Out.datagram d (e.make b)) := by
      unfold State.serve
      rw [out_fold_log (fun data => Out.datagram d (e.make data)), out_fold_open]
      rfl
    have hnil : ∀ k, ((s.queued d).map (fun b => Out.datagram d (e.make b))).countP (ends k) = 0 := by
      intro k
      rw [List.countP_map]
      exact countP_false _
    have htell : ∃ r, ((s.serve e d).tell d (fun n => okText n v)).out = (s.serve e d).out ++ r ∧ ∀ k, r.countP (ends k) = 0 := by
      unfold State.tell
      split
      · unfold State.say
        split
        · exact ⟨_, rfl, fun k => rfl⟩
        · exact ⟨[], (List.append_nil _).symm, fun k => rfl⟩
      · exact ⟨[], (List.append_nil _).symm, fun k => rfl⟩
    obtain ⟨r, h1, h2⟩ := htell
    refine ⟨(s.queued d).map (fun b => Out.datagram d (e.make b)) ++ r, ?_, ?_⟩
    · rw [h1, hserve, List.append_assoc]
    · intro k
      rw [List.countP_append, hnil, h2]

/-- If the lease set is not found, the sockets that wait are told so, in order, but not with a line: what they are sent has no line feed. -/
theorem C176_unterminated_violated (e : Env D) (s : State D) (d : D) (hq : d ∈ s.queries) (k : Sock) (hs : k ∈ (s.entry d).socks) :
    ∃ t : Str, Out.answer k t ∈ (s.step e (.notFound d)).out ∧ '\n' ∉ t := by
  refine ⟨"STREAM STATUS RESULT=CANT_REACH_PEER".toList, ?_, by decide⟩
  show _ ∈ (s.notFound d).out
  unfold State.notFound
  rw [if_pos hq]
  have hr : Out.answer k "STREAM STATUS RESULT=CANT_REACH_PEER".toList ∈ (s.refuse d).out := by
    unfold State.refuse
    rw [out_fold_log (fun k : Sock => (Out.answer k "STREAM STATUS RESULT=CANT_REACH_PEER".toList : Out D))]
    exact List.mem_append_right _ (List.mem_map_of_mem hs)
  unfold State.tell
  split
  · unfold State.say
    split
    · exact List.mem_append_left _ hr
    · exact hr
  · exact hr

/-- When another stream to the same destination is opened or rejected, the sockets that wait for the lease set of the destination are dropped and get no answer. -/
theorem C176_dropped_violated (e : Env D) (s : State D) (d : D) (k : Sock) (hs : k ∈ (s.entry d).socks) :
    Out.dropped k ∈ (s.step e (.streamOpened d)).out ∧ Out.dropped k ∈ (s.step e (.streamRejected d)).out ∧ (s.step e (.streamOpened d)).entry d = ⟨[], none⟩ := by
  have h : Out.dropped k ∈ (s.forget d).out ∧ (s.forget d).entry d = ⟨[], none⟩ := by
    unfold State.forget
    refine ⟨?_, ?_⟩
    · rw [out_fold_log (fun k : Sock => (Out.dropped k : Out D))]
      exact List.mem_append_right _ (List.mem_map_of_mem hs)
    · unfold State.entry
      rw [(fate_logs 0 (fun k : Sock => (Out.dropped k : Out D)) _ _).2]
      show ((s.pending.del d).get d).getD _ = _
      rw [AMap.get_del, if_pos rfl]
      rfl
  exact ⟨h.1, h.1, h.2⟩

/-- A client that wants a stream or listens in a session for datagrams gets no answer either. -/
theorem C176_kind_violated (e : Env D) (hk : e.kind ≠ .stream) (s : State D) (sock : Sock) (d : D) (c : Bool) :
    (s.step e (.connect sock d c)).out = s.out ++ [.dropped sock] ∧ (s.step e (.listen sock)).out = s.out ++ [.dropped sock] := by
  obtain ⟨h1, h2⟩ := (C175_kinds e s sock d [] c).1 hk
  rw [h1, h2]
  exact ⟨rfl, rfl⟩

/-- Nothing else drops a socket in a session for streams. -/
theorem C176_kept_partial (e : Env D) (hk : e.kind = .stream) (s : State D) (o : Op D) (ho : ∀ d, o ≠ .streamOpened d ∧ o ≠ .streamRejected d) (k : Sock)
    (h : Out.dropped k ∈ (s.step e o).out) : Out.dropped k ∈ s.out := by
  have hsay : ∀ (u : State D) n t, Out.dropped k ∈ (u.say n t).out → Out.dropped k ∈ u.out := by
    intro u n t hu
    unfold State.say at hu
    split at hu
    · rcases List.mem_append.mp hu with hu | hu
      · exact hu
      · cases List.mem_singleton.mp hu
    · exact hu
  have htell : ∀ (u : State D) d t, Out.dropped k ∈ (u.tell d t).out → Out.dropped k ∈ u.out := by
    intro u d t hu
    unfold State.tell at hu
    split at hu
    · exact hsay { u with hosts := u.hosts.del d } _ _ hu
    · exact hu
  have hask : ∀ d c, (s.ask d c).2.out = s.out := by
    intro d c
    unfold State.ask
    split
    · rfl
    · split <;> rfl
  cases o with
  | lookup n c =>
    replace h : Out.dropped k ∈ (if s.socket then s.lookup e n c else s).out := h
    split at h
    · unfold State.lookup at h
      split at h
      · exact hsay _ _ _ h
      · split at h
        · exact hsay _ _ _ h
        · rename_i y _
          have := hask y c.isSome
          split at h <;> (rename_i s' he; rw [he] at this; dsimp only at this)
          · rw [← this]
            exact hsay _ _ _ h
          · rw [← this]
            exact h
      · exact hsay _ _ _ h
      · split at h
        · exact h
        · exact hsay _ _ _ h
      · exact h
    · exact h
  | resolved j r =>
    replace h : Out.dropped k ∈ (s.resolved j r).out := h
    unfold State.resolved at h
    split at h
    · exact h
    · dsimp only at h
      split at h <;> exact hsay { s with books := s.books.eraseIdx j } _ _ h
  | connect j d c =>
    replace h : Out.dropped k ∈ (s.connect e j d c).out := h
    unfold State.connect at h
    rw [if_neg (by simp [hk])] at h
    split at h
    · rcases List.mem_append.mp h with h | h
      · exact h
      · cases List.mem_singleton.mp h
    · have := hask d c
      split at h <;> (rename_i s' he; rw [he] at this; dsimp only at this)
      · rw [← this]
        rcases List.mem_append.mp h with h | h
        · exact h
        · cases List.mem_singleton.mp h
      · rw [← this]
        exact h
  | listen j =>
    replace h : Out.dropped k ∈ (s.listen e j).out := h
    unfold State.listen at h
    rw [if_neg (by simp [hk])] at h
    rcases List.mem_append.mp h with h | h
    · exact h
    · cases List.mem_singleton.mp h
  | datagram d b c =>
    rw [(C175_kinds e s 0 d b c).2 hk] at h
    exact h
  | query d c =>
    rw [← hask d c]
    exact h
  | found d v =>
    replace h : Out.dropped k ∈ (s.found e d v).out := h
    unfold State.found at h
    split at h
    · have h := htell _ _ _ h
      unfold State.serve at h
      rw [out_fold_log (fun data => Out.datagram d (e.make data)), out_fold_open] at h
      simp only [List.mem_append, List.mem_map] at h
      rcases h with (h | ⟨_, _, h⟩) | ⟨_, _, h⟩
      · exact h
      · cases h
      · cases h
    · exact h
  | notFound d =>
    replace h : Out.dropped k ∈ (s.notFound d).out := h
    unfold State.notFound at h
    split at h
    · have h := htell _ _ _ h
      unfold State.refuse at h
      rw [out_fold_log (fun k : Sock => (Out.answer k "STREAM STATUS RESULT=CANT_REACH_PEER".toList : Out D)), out_fold_log (fun _ : Wait => Out.removed d)] at h
      simp only [List.mem_append, List.mem_map] at h
      rcases h with (h | ⟨_, _, h⟩) | ⟨_, _, h⟩
      · exact h
      · cases h
      · cases h
    · exact h
  | streamOpened d => exact absurd rfl (ho d).1
  | streamRejected d => exact absurd rfl (ho d).2
  | close => exact h

/-- A client that wants a stream to its own destination is told that it cannot be reached. -/
theorem C176_self (e : Env D) (s : State D) (hk : e.kind = .stream) (sock : Sock) (c : Bool) :
    s.step e (.connect sock e.me c) = s.log (.answer sock "STREAM STATUS RESULT=CANT_REACH_PEER\n".toList) := by
  show s.connect e sock e.me c = _
  unfold State.connect
  rw [if_neg (by simp [hk]), if_pos rfl]

end Emissary.SamSession

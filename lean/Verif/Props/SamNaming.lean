import Verif.Model.SamSession
import Mathlib.Data.List.Perm.Basic
/-!
# Looking up names in a SAM session

* C174: a client that looks up a name gets one answer.
-/
namespace Emissary.SamSession

open Emissary.SamParser (Str Kind)

variable {D : Type} [DecidableEq D]

/-! ## Specification -/

/-- The answers to lookups that the client was sent: the name and the line. -/
def said (os : List (Out D)) : List (Str × Str) := os.filterMap fun
  | .line n t => some (n, t)
  | _ => none

/-- The names that the client looked up. -/
def looked (ops : List (Op D)) : List Str := ops.filterMap fun
  | .lookup n _ => some n
  | _ => none

/-- The destination whose lease set has to be found for a name. -/
def target (e : Env D) (n : Str) : Option D :=
  match classify n with
  | .b32 x => e.b32 x
  | _ => none

/-! ## Lemmas -/

theorem said_append (a b : List (Out D)) : said (a ++ b) = said a ++ said b := List.filterMap_append

/-- What has to do with lookups is the same. -/
structure Same (s t : State D) : Prop where
  hosts : t.hosts = s.hosts
  books : t.books = s.books
  said : said t.out = said s.out
  socket : t.socket = s.socket

theorem Same.rfl (s : State D) : Same s s := ⟨Eq.refl _, Eq.refl _, Eq.refl _, Eq.refl _⟩

theorem Same.trans {s t u : State D} (h : Same s t) (h' : Same t u) : Same s u :=
  ⟨h'.hosts.trans h.hosts, h'.books.trans h.books, h'.said.trans h.said, h'.socket.trans h.socket⟩

theorem Same.log {s t : State D} (h : Same s t) (o : Out D) (ho : ∀ n x, o ≠ .line n x) : Same s (t.log o) := by
  refine ⟨h.hosts, h.books, ?_, h.socket⟩
  show SamSession.said (t.out ++ [o]) = _
  rw [said_append, h.said]
  cases o with
  | line n x => exact absurd (Eq.refl _) (ho n x)
  | _ => exact List.append_nil _

theorem Same.fold {α : Type} {s t : State D} (f : State D → α → State D) (hf : ∀ u a, Same u (f u a)) (l : List α) (h : Same s t) : Same s (l.foldl f t) := by
  induction l generalizing t with
  | nil => exact h
  | cons a l ih => exact ih (h.trans (hf t a))

theorem ask_same (s : State D) (d : D) (c : Bool) : Same s (s.ask d c).2 := by
  unfold State.ask
  split
  · exact .rfl s
  · split
    · exact .rfl s
    · exact ⟨rfl, rfl, rfl, rfl⟩

theorem openStream_same (s : State D) (d : D) (sock : Sock) : Same s (s.openStream d sock) := by
  unfold State.openStream
  refine ⟨rfl, rfl, ?_, rfl⟩
  show said (s.out ++ [_]) = _
  rw [said_append]
  exact List.append_nil _

theorem connect_same (e : Env D) (s : State D) (sock : Sock) (d : D) (c : Bool) : Same s (s.connect e sock d c) := by
  unfold State.connect
  split
  · exact (Same.rfl s).log _ (fun n x h => by cases h)
  split
  · exact (Same.rfl s).log _ (fun n x h => by cases h)
  have := ask_same s d c
  split <;> (rename_i s' he; rw [he] at this)
  · exact this.trans (openStream_same _ _ _)
  · exact this.trans ⟨rfl, rfl, rfl, rfl⟩

theorem datagram_same (e : Env D) (s : State D) (d : D) (b : Bytes) (c : Bool) : Same s (s.datagram e d b c) := by
  unfold State.datagram
  split
  · exact .rfl s
  have := ask_same s d c
  split <;> (rename_i s' he; rw [he] at this)
  · exact this.log _ (fun n x h => by cases h)
  · exact this.trans ⟨rfl, rfl, rfl, rfl⟩

theorem forget_same (s : State D) (d : D) : Same s (s.forget d) := by
  unfold State.forget
  exact Same.fold _ (fun u a => (Same.rfl u).log _ (fun n x h => by cases h)) _ ⟨rfl, rfl, rfl, rfl⟩

theorem say_open (s : State D) (n t : Str) (h : s.socket = true) : s.say n t = s.log (.line n t) := by
  unfold State.say
  rw [if_pos h]

theorem serve_same (e : Env D) (s : State D) (d : D) : Same s (s.serve e d) := by
  unfold State.serve
  refine Same.fold _ (fun u a => (Same.rfl u).log _ (fun n x h => by cases h)) _ ?_
  exact Same.fold _ (fun u a => openStream_same u _ _) _ ⟨rfl, rfl, rfl, rfl⟩

theorem refuse_same (s : State D) (d : D) : Same s (s.refuse d) := by
  unfold State.refuse
  refine Same.fold _ (fun u a => (Same.rfl u).log _ (fun n x h => by cases h)) _ ?_
  exact Same.fold _ (fun u a => (Same.rfl u).log _ (fun n x h => by cases h)) _ ⟨rfl, rfl, rfl, rfl⟩

/-- A name is told to the client. -/
theorem tell_some (s : State D) (d : D) (text : Str → Str) (name : Str) (h : s.hosts.get d = some name) (hs : s.socket = true) :
    (s.tell d text).hosts = s.hosts.del d ∧ said (s.tell d text).out = said s.out ++ [(name, text name)] ∧ (s.tell d text).books = s.books ∧ (s.tell d text).socket = true := by
  unfold State.tell
  rw [h]
  dsimp only
  rw [say_open { s with hosts := s.hosts.del d } _ _ hs]
  exact ⟨rfl, said_append _ _, rfl, hs⟩

/-! ## Every answer is to a lookup -/

/-- How often a name has been answered or waits for an answer. -/
def due (n : Str) (s : State D) : Nat := ((said s.out).map Prod.fst).count n + (s.hosts.map Prod.snd).count n + s.books.count n

theorem Same.due {s t : State D} (h : Same s t) (n : Str) : SamSession.due n t = SamSession.due n s := by
  unfold SamSession.due
  rw [h.hosts, h.books, h.said]

theorem due_say (n : Str) (s : State D) (name text : Str) : due n (s.say name text) ≤ due n s + [name].count n := by
  unfold State.say
  split
  · unfold due State.log
    dsimp only
    rw [said_append, List.map_append, List.count_append]
    show _ + List.count n [name] + _ + _ ≤ _
    omega
  · omega

theorem count_del (m : AMap D Str) (d : D) (n : Str) : ((m.del d).map Prod.snd).count n ≤ (m.map Prod.snd).count n := by
  unfold AMap.del
  exact (List.filter_sublist.map _).count_le _

theorem count_del_some (m : AMap D Str) (d : D) (name n : Str) (h : m.get d = some name) :
    ((m.del d).map Prod.snd).count n + [name].count n ≤ (m.map Prod.snd).count n := by
  induction m with
  | nil => cases h
  | cons x m ih =>
    rw [AMap.get_cons] at h
    by_cases hx : x.1 = d
    · rw [if_pos hx] at h
      cases h
      have : AMap.del (x :: m) d = AMap.del m d := by
        unfold AMap.del
        rw [List.filter_cons, if_neg (by simp [hx])]
      rw [this, List.map_cons]
      have := count_del m d n
      show _ + List.count n [x.2] ≤ List.count n (x.2 :: _)
      rw [List.count_cons (l := List.map _ _), List.count_singleton]
      omega
    · rw [if_neg hx] at h
      have : AMap.del (x :: m) d = x :: AMap.del m d := by
        unfold AMap.del
        rw [List.filter_cons, if_pos (by simp [hx])]
      have := ih h
      rw [‹AMap.del (x :: m) d = _›, List.map_cons, List.map_cons, List.count_cons (l := List.map _ (AMap.del m d)), List.count_cons (l := List.map _ m)]
      omega

theorem due_tell (n : Str) (s : State D) (d : D) (text : Str → Str) : due n (s.tell d text) ≤ due n s := by
  unfold State.tell
  split
  · rename_i name h
    refine Nat.le_trans (due_say n _ _ _) ?_
    have := count_del_some s.hosts d name n h
    unfold due
    dsimp only
    omega
  · exact Nat.le_refl _

theorem due_step (e : Env D) (n : Str) (s : State D) (o : Op D) : due n (s.step e o) ≤ due n s + (looked [o]).count n := by
  cases o with
  | lookup name cached =>
    show due n (if s.socket then s.lookup e name cached else s) ≤ due n s + [name].count n
    split
    · unfold State.lookup
      split
      · exact due_say _ _ _ _
      · split
        · exact due_say _ _ _ _
        · rename_i x d _
          have hs := ask_same s d cached.isSome
          split <;> (rename_i s' he; rw [he] at hs; dsimp only at hs)
          · rw [← hs.due n]
            exact due_say _ _ _ _
          · rw [← hs.due n]
            unfold due
            dsimp only
            unfold AMap.put
            rw [List.map_cons, List.count_cons, List.count_singleton]
            have := count_del s'.hosts d n
            dsimp only
            omega
      · exact due_say _ _ _ _
      · split
        · unfold due
          dsimp only
          rw [List.count_append]
          omega
        · exact due_say _ _ _ _
      · omega
    · omega
  | resolved k r =>
    show due n (s.resolved k r) ≤ due n s + 0
    unfold State.resolved
    split
    · exact Nat.le_refl _
    · rename_i name hk
      have hc : (s.books.eraseIdx k).count n + [name].count n = s.books.count n := by
        obtain ⟨h1, h2⟩ := List.getElem?_eq_some_iff.mp hk
        have := (List.getElem_cons_eraseIdx_perm h1).count_eq n
        rw [h2, List.count_cons] at this
        rw [List.count_singleton]
        omega
      dsimp only
      have key : ∀ text, due n ({ s with books := s.books.eraseIdx k }.say name text) ≤ due n s := by
        intro text
        refine Nat.le_trans (due_say n _ _ _) ?_
        unfold due
        dsimp only
        omega
      split
      · exact key _
      · exact key _
  | connect sock d c => exact Nat.le_of_eq ((connect_same e s sock d c).due n)
  | listen sock =>
    show due n (s.listen e sock) ≤ due n s + 0
    unfold State.listen
    split <;> exact Nat.le_of_eq (((Same.rfl s).log _ (fun n x h => by cases h)).due n)
  | datagram d b c => exact Nat.le_of_eq ((datagram_same e s d b c).due n)
  | query d c => exact Nat.le_of_eq ((ask_same s d c).due n)
  | found d v =>
    show due n (s.found e d v) ≤ due n s + 0
    unfold State.found
    split
    · rw [← (serve_same e s d).due n]
      exact due_tell _ _ _ _
    · exact Nat.le_refl _
  | notFound d =>
    show due n (s.notFound d) ≤ due n s + 0
    unfold State.notFound
    split
    · rw [← (refuse_same s d).due n]
      exact due_tell _ _ _ _
    · exact Nat.le_refl _
  | streamOpened d => exact Nat.le_of_eq ((forget_same s d).due n)
  | streamRejected d => exact Nat.le_of_eq ((forget_same s d).due n)
  | close => exact Nat.le_refl _

/-! ## C174 -/

/-- A client is not told about a name more often than it looked it up, and each answer is a line about that name: a value, an invalid name or an unknown name. -/
theorem C174_once (e : Env D) (ops : List (Op D)) (n : Str) :
    ((said (State.run e State.new ops).out).map Prod.fst).count n ≤ (looked ops).count n := by
  have key : ∀ (ops : List (Op D)) (s : State D), due n (s.run e ops) ≤ due n s + (looked ops).count n := by
    intro ops
    induction ops with
    | nil => exact fun s => Nat.le_refl _
    | cons o ops ih =>
      intro s
      have h1 := ih (s.step e o)
      have h2 := due_step e n s o
      have : looked (o :: ops) = looked [o] ++ looked ops := by
        unfold looked
        rw [← List.filterMap_append]
        rfl
      rw [this, List.count_append]
      show due n (State.run e (s.step e o) ops) ≤ _
      omega
  have := key ops State.new
  have h0 : due n (State.new : State D) = 0 := rfl
  unfold due at this h0
  omega

/-- A line of the SAM protocol: words with a space between two of them, and a newline at the end. -/
def samLine : List Str → Str
  | [] => ['\n']
  | [w] => w ++ ['\n']
  | w :: ws => w ++ ' ' :: samLine ws

/-- The three answers to a lookup are the lines of the SAM specification. -/
theorem C174_texts (name value : Str) :
    okText name value = samLine ["NAMING".toList, "REPLY".toList, "RESULT=OK".toList, "NAME=".toList ++ name, "VALUE=".toList ++ value] ∧
    missingText name = samLine ["NAMING".toList, "REPLY".toList, "RESULT=KEY_NOT_FOUND".toList, "NAME=".toList ++ name] ∧
    invalidText name = samLine ["NAMING".toList, "REPLY".toList, "RESULT=INVALID_KEY".toList, "NAME=".toList ++ name] := by
  have h1 : "NAMING REPLY RESULT=OK NAME=".toList = "NAMING".toList ++ ' ' :: ("REPLY".toList ++ ' ' :: ("RESULT=OK".toList ++ ' ' :: "NAME=".toList)) := by decide +kernel
  have h2 : "NAMING REPLY RESULT=KEY_NOT_FOUND NAME=".toList = "NAMING".toList ++ ' ' :: ("REPLY".toList ++ ' ' :: ("RESULT=KEY_NOT_FOUND".toList ++ ' ' :: "NAME=".toList)) := by decide +kernel
  have h3 : "NAMING REPLY RESULT=INVALID_KEY NAME=".toList = "NAMING".toList ++ ' ' :: ("REPLY".toList ++ ' ' :: ("RESULT=INVALID_KEY".toList ++ ' ' :: "NAME=".toList)) := by decide +kernel
  have h4 : " VALUE=".toList = ' ' :: "VALUE=".toList := by decide +kernel
  have h5 : "\n".toList = ['\n'] := by decide +kernel
  unfold okText missingText invalidText
  rw [h1, h2, h3, h4, h5]
  simp only [samLine, List.append_assoc, List.cons_append, and_self]

/-- Names that need no query are answered at once: the client's own name, names that are not valid, names if there is no address book, and destinations whose lease set is there. -/
theorem C174_now (e : Env D) (s : State D) (hs : s.socket = true) (name : Str) (cached : Option Str) :
    (name = "ME".toList → said (s.step e (.lookup name cached)).out = said s.out ++ [(name, okText name e.own)]) ∧
    (classify name = .bad → said (s.step e (.lookup name cached)).out = said s.out ++ [(name, invalidText name)]) ∧
    (∀ x, classify name = .b32 x → e.b32 x = none → said (s.step e (.lookup name cached)).out = said s.out ++ [(name, invalidText name)]) ∧
    (classify name = .book → e.book = false → said (s.step e (.lookup name cached)).out = said s.out ++ [(name, missingText name)]) ∧
    (∀ d v, target e name = some d → cached = some v → d ∉ s.queries → said (s.step e (.lookup name cached)).out = said s.out ++ [(name, okText name v)]) := by
  have he : s.step e (.lookup name cached) = s.lookup e name cached := by
    show (if s.socket then s.lookup e name cached else s) = _
    rw [if_pos hs]
  rw [he]
  unfold State.lookup
  have hsay : ∀ t, said (s.say name t).out = said s.out ++ [(name, t)] := by
    intro t
    rw [say_open _ _ _ hs]
    exact said_append _ _
  refine ⟨?_, ?_, ?_, ?_, ?_⟩
  · intro h
    have : classify name = .me := by
      unfold classify
      rw [if_pos h]
    rw [this]
    exact hsay _
  · intro h
    rw [h]
    exact hsay _
  · intro x h h'
    rw [h]
    dsimp only
    rw [h']
    exact hsay _
  · intro h h'
    rw [h]
    dsimp only
    rw [h', if_neg (by simp)]
    exact hsay _
  · intro d v h hc hq
    unfold target at h
    split at h
    · rename_i x hx
      rw [hx]
      dsimp only
      rw [h]
      dsimp only
      unfold State.ask
      rw [if_neg hq, hc]
      exact hsay _
    · cases h

/-- Does this concern the lookup of a name for a destination? -/
def touches (e : Env D) (d : D) : Op D → Prop
  | .lookup n _ => target e n = some d
  | .found d' _ => d' = d
  | .notFound d' => d' = d
  | .close => True
  | _ => False

/-- The lookup is under way. -/
structure Looking (s : State D) (d : D) (name : Str) : Prop where
  host : s.hosts.get d = some name
  query : d ∈ s.queries
  socket : s.socket = true

theorem ask_queries (s : State D) (d x : D) (c : Bool) (h : x ∈ s.queries) : x ∈ (s.ask d c).2.queries := by
  unfold State.ask
  split
  · exact h
  · split
    · exact h
    · exact List.mem_cons_of_mem _ h

theorem fold_queries {α : Type} (f : State D → α → State D) (hf : ∀ u a, (f u a).queries = u.queries) (l : List α) (s : State D) : (l.foldl f s).queries = s.queries := by
  induction l generalizing s with
  | nil => rfl
  | cons a l ih => exact (ih _).trans (hf s a)

theorem say_queries (s : State D) (n t : Str) : (s.say n t).queries = s.queries := by
  unfold State.say
  split <;> rfl

theorem tell_queries (s : State D) (d : D) (t : Str → Str) : (s.tell d t).queries = s.queries := by
  unfold State.tell
  split
  · exact say_queries _ _ _
  · rfl

theorem serve_queries (e : Env D) (s : State D) (d : D) : (s.serve e d).queries = s.queries.filter (· ≠ d) := by
  unfold State.serve
  rw [fold_queries _ (by intro u a; rfl), fold_queries _ (by intro u a; rfl)]
  rfl

theorem refuse_queries (s : State D) (d : D) : (s.refuse d).queries = s.queries.filter (· ≠ d) := by
  unfold State.refuse
  rw [fold_queries _ (by intro u a; rfl), fold_queries _ (by intro u a; rfl)]
  rfl

theorem say_core (s : State D) (n t : Str) : (s.say n t).hosts = s.hosts ∧ (s.say n t).socket = s.socket := by
  unfold State.say
  split <;> exact ⟨rfl, rfl⟩

theorem Looking.of_same {s t : State D} {d : D} {name : Str} (h : Looking s d name) (hs : Same s t) (hq : d ∈ t.queries) : Looking t d name :=
  ⟨by rw [hs.hosts]; exact h.host, hq, by rw [hs.socket]; exact h.socket⟩

theorem Looking.tell {s : State D} {d x : D} {name : Str} (h : Looking s d name) (hx : x ≠ d) (t : Str → Str) : Looking (s.tell x t) d name := by
  refine ⟨?_, by rw [tell_queries]; exact h.query, ?_⟩
  · unfold State.tell
    split
    · rw [(say_core _ _ _).1]
      show (s.hosts.del x).get d = _
      rw [AMap.get_del, if_neg (fun e => hx e.symm)]
      exact h.host
    · exact h.host
  · unfold State.tell
    split
    · rw [(say_core _ _ _).2]
      exact h.socket
    · exact h.socket

theorem Looking.step {s : State D} {d : D} {name : Str} (h : Looking s d name) (e : Env D) (o : Op D) (ho : ¬ touches e d o) : Looking (s.step e o) d name := by
  have hsay : ∀ (t : State D) n x, Looking t d name → Looking (t.say n x) d name := by
    intro t n x ht
    refine ⟨by rw [(say_core t n x).1]; exact ht.host, by rw [say_queries]; exact ht.query, by rw [(say_core t n x).2]; exact ht.socket⟩
  cases o with
  | lookup n c =>
    show Looking (if s.socket then s.lookup e n c else s) d name
    rw [if_pos h.socket]
    unfold State.lookup
    have ho : target e n ≠ some d := ho
    unfold target at ho
    split
    · exact hsay _ _ _ h
    · rename_i x hx
      rw [hx] at ho
      dsimp only at ho
      split
      · exact hsay _ _ _ h
      · rename_i y hy
        rw [hy] at ho
        have hs := ask_same s y c.isSome
        have hq := ask_queries s y d c.isSome h.query
        split <;> (rename_i s' he; rw [he] at hs hq; dsimp only at hs hq)
        · exact hsay _ _ _ (h.of_same hs hq)
        · have h' := h.of_same hs hq
          refine ⟨?_, hq, h'.socket⟩
          show (s'.hosts.put y n).get d = _
          rw [AMap.get_put, if_neg (fun e => ho (by rw [e]))]
          exact h'.host
    · exact hsay _ _ _ h
    · split
      · exact ⟨h.host, h.query, h.socket⟩
      · exact hsay _ _ _ h
    · exact h
  | resolved k r =>
    show Looking (s.resolved k r) d name
    unfold State.resolved
    split
    · exact h
    · dsimp only
      split <;> exact hsay { s with books := s.books.eraseIdx k } _ _ ⟨h.host, h.query, h.socket⟩
  | connect sock x c =>
    refine h.of_same (connect_same e s sock x c) ?_
    show d ∈ (s.connect e sock x c).queries
    unfold State.connect
    split
    · exact h.query
    split
    · exact h.query
    have hq := ask_queries s x d c h.query
    split <;> (rename_i s' he; rw [he] at hq; exact hq)
  | listen sock =>
    show Looking (s.listen e sock) d name
    unfold State.listen
    split <;> exact ⟨h.host, h.query, h.socket⟩
  | datagram x b c =>
    refine h.of_same (datagram_same e s x b c) ?_
    show d ∈ (s.datagram e x b c).queries
    unfold State.datagram
    split
    · exact h.query
    have hq := ask_queries s x d c h.query
    split <;> (rename_i s' he; rw [he] at hq; exact hq)
  | query x c => exact h.of_same (ask_same s x c) (ask_queries s x d c h.query)
  | found x v =>
    have hx : x ≠ d := ho
    show Looking (s.found e x v) d name
    unfold State.found
    split
    · refine Looking.tell (h.of_same (serve_same e s x) ?_) hx _
      rw [serve_queries]
      exact List.mem_filter.mpr ⟨h.query, by simpa using hx.symm⟩
    · exact h
  | notFound x =>
    have hx : x ≠ d := ho
    show Looking (s.notFound x) d name
    unfold State.notFound
    split
    · refine Looking.tell (h.of_same (refuse_same s x) ?_) hx _
      rw [refuse_queries]
      exact List.mem_filter.mpr ⟨h.query, by simpa using hx.symm⟩
    · exact h
  | streamOpened x =>
    refine h.of_same (forget_same s x) ?_
    show d ∈ (s.forget x).queries
    unfold State.forget
    rw [fold_queries _ (by intro u a; rfl)]
    exact h.query
  | streamRejected x =>
    refine h.of_same (forget_same s x) ?_
    show d ∈ (s.forget x).queries
    unfold State.forget
    rw [fold_queries _ (by intro u a; rfl)]
    exact h.query
  | close => exact absurd trivial ho

theorem Looking.run {s : State D} {d : D} {name : Str} (h : Looking s d name) (e : Env D) (ops : List (Op D)) (ho : ∀ o ∈ ops, ¬ touches e d o) : Looking (s.run e ops) d name := by
  induction ops generalizing s with
  | nil => exact h
  | cons o ops ih => exact ih (h.step e o (ho o List.mem_cons_self)) (fun o' h' => ho o' (List.mem_cons_of_mem _ h'))

theorem lookup_looking (e : Env D) (s : State D) (hs : s.socket = true) (name : Str) (cached : Option Str) (d : D) (ht : target e name = some d)
    (hq : d ∈ s.queries ∨ cached = none) : Looking (s.step e (.lookup name cached)) d name ∧ said (s.step e (.lookup name cached)).out = said s.out := by
  show Looking (if s.socket then s.lookup e name cached else s) d name ∧ said (if s.socket then s.lookup e name cached else s).out = _
  rw [if_pos hs]
  unfold State.lookup
  unfold target at ht
  split at ht
  · rename_i x hx
    rw [hx]
    dsimp only
    rw [ht]
    dsimp only
    unfold State.ask
    by_cases h : d ∈ s.queries
    · rw [if_pos h]
      refine ⟨⟨?_, h, hs⟩, rfl⟩
      show (s.hosts.put d name).get d = _
      rw [AMap.get_put, if_pos rfl]
    · rw [if_neg h]
      rcases hq with hq | hq
      · exact absurd hq h
      rw [hq]
      refine ⟨⟨?_, List.mem_cons_self, hs⟩, rfl⟩
      show (s.hosts.put d name).get d = _
      rw [AMap.get_put, if_pos rfl]
  · cases ht

/-- A name whose lease set has to be found is answered as soon as the query is over, if no other name for the same destination is looked up in the meantime. -/
theorem C174_answered_partial (e : Env D) (s : State D) (hs : s.socket = true) (name : Str) (cached : Option Str) (d : D) (ht : target e name = some d)
    (hq : d ∈ s.queries ∨ cached = none) (ops : List (Op D)) (ho : ∀ o ∈ ops, ¬ touches e d o) (v : Str) :
    ∃ t, t = (s.step e (.lookup name cached)).run e ops ∧
      said (t.step e (.found d v)).out = said t.out ++ [(name, okText name v)] ∧
      said (t.step e (.notFound d)).out = said t.out ++ [(name, missingText name)] := by
  have h := (lookup_looking e s hs name cached d ht hq).1.run e ops ho
  refine ⟨_, rfl, ?_, ?_⟩
  · generalize (s.step e (.lookup name cached)).run e ops = t at h
    show said (t.found e d v).out = _
    unfold State.found
    rw [if_pos h.query]
    have hs := serve_same e t d
    rw [(tell_some _ d _ name (by rw [hs.hosts]; exact h.host) (by rw [hs.socket]; exact h.socket)).2.1, hs.said]
  · generalize (s.step e (.lookup name cached)).run e ops = t at h
    show said (t.notFound d).out = _
    unfold State.notFound
    rw [if_pos h.query]
    have hs := refuse_same t d
    rw [(tell_some _ d _ name (by rw [hs.hosts]; exact h.host) (by rw [hs.socket]; exact h.socket)).2.1, hs.said]

/-- A name in the address book is answered as soon as the address book has answered. -/
theorem C174_book (e : Env D) (s : State D) (hs : s.socket = true) (name : Str) :
    (e.book = true → classify name = .book → ∀ c, (s.step e (.lookup name c)).books = s.books ++ [name]) ∧
    ∀ k, s.books[k]? = some name → ∀ r, said (s.step e (.resolved k r)).out = said s.out ++ [(name, match r with | some v => okText name v | none => missingText name)] ∧
      (s.step e (.resolved k r)).books = s.books.eraseIdx k := by
  refine ⟨?_, ?_⟩
  · intro hb hc c
    show (if s.socket then s.lookup e name c else s).books = _
    rw [if_pos hs]
    unfold State.lookup
    rw [hc]
    dsimp only
    rw [if_pos hb]
  · intro k hk r
    show said (s.resolved k r).out = _ ∧ (s.resolved k r).books = _
    unfold State.resolved
    rw [hk]
    dsimp only
    cases r <;> (dsimp only; rw [say_open { s with books := s.books.eraseIdx k } _ _ hs]; exact ⟨said_append _ _, rfl⟩)

/-- If two names are looked up that need the same lease set, or one name twice, there is one answer: the first lookup is never answered. -/
theorem C174_twice_violated (e : Env D) (s : State D) (hs : s.socket = true) (n1 n2 : Str) (d : D) (h1 : target e n1 = some d) (h2 : target e n2 = some d)
    (hq : d ∉ s.queries) (v : Str) :
    ∃ t, t = s.run e [.lookup n1 none, .lookup n2 none, .found d v] ∧ said t.out = said s.out ++ [(n2, okText n2 v)] ∧ t.hosts.get d = none ∧ d ∉ t.queries := by
  obtain ⟨a1, a2⟩ := lookup_looking e s hs n1 none d h1 (.inr rfl)
  obtain ⟨b1, b2⟩ := lookup_looking e (s.step e (.lookup n1 none)) a1.socket n2 none d h2 (.inl a1.query)
  refine ⟨_, rfl, ?_⟩
  show said (((s.step e (.lookup n1 none)).step e (.lookup n2 none)).found e d v).out = _ ∧ (((s.step e (.lookup n1 none)).step e (.lookup n2 none)).found e d v).hosts.get d = _ ∧
    d ∉ (((s.step e (.lookup n1 none)).step e (.lookup n2 none)).found e d v).queries
  rw [a2] at b2
  generalize (s.step e (.lookup n1 none)).step e (.lookup n2 none) = t at b1 b2
  unfold State.found
  rw [if_pos b1.query]
  have hs := serve_same e t d
  obtain ⟨c1, c2, _⟩ := tell_some (t.serve e d) d (fun n => okText n v) n2 (by rw [hs.hosts]; exact b1.host) (by rw [hs.socket]; exact b1.socket)
  refine ⟨by rw [c2, hs.said, b2], ?_, ?_⟩
  · rw [c1, AMap.get_del, if_pos rfl]
  · rw [tell_queries, serve_queries]
    simp

end Emissary.SamSession

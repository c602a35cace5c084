import Verif.Props.Datagram
/-!
# Examples for datagrams
-/
namespace Emissary.Datagram

open Emissary.Prim (Destination Env parseUInt VKey)

/-- "Compression" that only adds a header. -/
def toyGzip : Gzip := { compress := fun p => some (List.replicate 10 31 ++ p), decompress := fun c => some (c.drop 10) }

theorem toyGzip_ok : toyGzip.Ok := by
  intro p c h
  have h := (Option.some.inj h).symm
  subst h
  refine ⟨by rw [List.length_append, List.length_replicate]; omega, ?_⟩
  intro c' hl h
  refine congrArg some (List.ext_getElem? fun i => ?_)
  rw [List.getElem?_drop, h (10 + i) (by simp; omega), List.getElem?_append_right (by simp), List.length_replicate]
  congr 1
  omega

def toyKey : Bytes := List.replicate 32 1
def toyPad : Bytes := List.replicate 352 2
def toyDest : Destination := Destination.new Env.sample toyKey toyPad
def alice : Mgr := { dest := toyDest, kind := .datagram, port := none, sign := fun _ => List.replicate 64 9 }
def bob : Mgr := { dest := toyDest, kind := .datagram, port := some (ascii "7655"), sign := fun _ => List.replicate 64 9 }

example : (build toyGzip 80 443 .datagram [1, 2, 3]) = some [31, 31, 31, 31, 0, 80, 1, 187, 31, 17, 1, 2, 3] := by decide +kernel
example := C178_roundtrip toyGzip toyGzip_ok 80 443 (by decide) (by decide) .datagram [1, 2, 3] [31, 31, 31, 31, 0, 80, 1, 187, 31, 17, 1, 2, 3] (by decide +kernel)
example := (C178_refused toyGzip [1, 2, 3]).1 (by decide)
example := (C178_refused toyGzip [1, 2, 3, 4, 5, 6, 7, 8, 9, 10]).2.1 (by decide)
example : (decompress toyGzip [31, 31, 31, 31, 0, 80, 1, 187, 31, 17, 1, 2, 3]).isSome = true := by decide +kernel

example : ((alice.send toyGzip [5, 6]).bind (bob.receive Env.sample toyGzip (fun _ => ascii "AAAA") true)) =
    some (.inr (.client 7655 (ascii "AAAA FROM_PORT=0 TO_PORT=0\n" ++ [5, 6]))) := by decide +kernel
example : ∃ m, alice.send toyGzip [5, 6] = some m := ⟨_, rfl⟩
example := C177_delivered_partial Env.sample toyGzip toyGzip_ok (fun _ => ascii "AAAA") alice bob toyKey toyPad (by decide) (by decide +kernel) (by decide +kernel) rfl (fun _ => List.length_replicate) [5, 6] _ rfl
  (ascii "7655") 7655 rfl (by decide +kernel)
example := C177_forged_violated Env.sample toyGzip toyGzip_ok (fun _ => ascii "AAAA") bob toyKey toyPad (by decide) (by decide +kernel) (by decide +kernel) (List.replicate 64 0) [5, 6] _ (by decide +kernel) rfl
  (ascii "7655") 7655 rfl (by decide +kernel)
example : bob.onDatagram Env.sample (fun _ => ascii "AAAA") true { src := 1, dst := 2, protocol := .datagram, payload := toyDest.serialized ++ List.replicate 64 0 ++ [7] } =
    .client 7655 (ascii "AAAA FROM_PORT=2 TO_PORT=1\n" ++ [7]) := by decide +kernel
example := C177_exact Env.sample (fun _ => ascii "AAAA") bob true { src := 1, dst := 2, protocol := .anonymous, payload := [7] } 7655 [7] (by decide +kernel)
example : ∃ message out, build toyGzip 1 2 .datagram (toyDest.serialized ++ List.replicate 64 0 ++ [7]) = some message ∧
    bob.receive Env.sample toyGzip (fun _ => ascii "AAAA") true message = some (.inr (.client 7655 out)) := ⟨_, ascii "AAAA FROM_PORT=2 TO_PORT=1\n" ++ [7], rfl, by decide +kernel⟩
example := C177_port_violated Env.sample (fun _ => ascii "AAAA") { bob with port := some (ascii "here") } true (ascii "here") rfl (by decide +kernel) { src := 1, dst := 2, protocol := .anonymous, payload := [7] } rfl
example := C177_lost_violated Env.sample (fun _ => ascii "AAAA") bob { src := 1, dst := 2, protocol := .anonymous, payload := [7] } 7655 [7]

/-- A destination with a DSA key. -/
def toyDsa : Destination := { hash := be 32 387, serialized := List.replicate 384 3 ++ [0, 0, 0], key := .dsa (List.replicate 128 3) }

theorem toyDsa_parse (r : Bytes) : Destination.parse Env.sample (toyDsa.serialized ++ r) = some (toyDsa, r) := by
  have hs : toyDsa.serialized ++ r = List.replicate 384 3 ++ (be 1 0 ++ (be 2 0 ++ r)) := by
    rw [show toyDsa.serialized = List.replicate 384 3 ++ (be 1 0 ++ be 2 0) from rfl, List.append_assoc, List.append_assoc]
  have ht : (toyDsa.serialized ++ r).take 387 = toyDsa.serialized := List.take_left' (by decide +kernel)
  unfold Destination.parse
  rw [if_neg (by rw [List.length_append, show toyDsa.serialized.length = 387 by decide +kernel]; omega)]
  rw [hs] at ht ⊢
  rw [takeN_append (by rw [List.length_replicate])]
  simp only [bind_some_pair, beU_be]
  unfold Destination.parseCert
  rw [if_pos (by decide)]
  have h1 : (List.replicate 384 (3 : UInt8)).drop 256 = List.replicate 128 3 := by decide +kernel
  rw [h1, show Env.mkKey Env.sample (.dsa (List.replicate 128 3)) = some (.dsa (List.replicate 128 3)) from rfl]
  simp only [bind_some_val, Option.pure_def, bind_some_pair, ht]
  rw [show Env.sample.sha256 toyDsa.serialized = be 32 387 by decide +kernel]
  rfl

example := C177_dsa_violated Env.sample (fun _ => ascii "AAAA") bob toyDsa (List.replicate 40 0) (List.replicate 30 5) (List.replicate 128 3) rfl (by decide +kernel) toyDsa_parse (by decide +kernel) 0 0 7655
  (ascii "AAAA FROM_PORT=0 TO_PORT=0\n" ++ List.replicate 6 5) (by decide +kernel)

end Emissary.Datagram

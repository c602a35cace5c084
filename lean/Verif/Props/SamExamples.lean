import Verif.Props.SamHost
/-!
# C165 to C167: cases that meet the hypotheses
-/
namespace Emissary.SamParser

/-- Every character is a byte, except that there are no dots in base 64 and base 32. A destination is two bytes. -/
def toyE : Env Bytes where
  base64 t := if '.' ∈ t then none else some (t.map fun c => UInt8.ofNat c.toNat)
  base32 t := if '.' ∈ t then none else some (t.map fun c => UInt8.ofNat c.toNat)
  dest b := if 2 ≤ b.length then some (b.take 2, b.drop 2) else none

/-- An option without quotes, and one with quotes. -/
def opt (k v : String) : Opt := ⟨k.toList, v.toList, false⟩
def optq (k v : String) : Opt := ⟨k.toList, v.toList, true⟩

def isOk (o : Opt) : Bool := (match o.key with | [] => false | c :: r => (isAlpha c || c == '_') && r.all fun d => isAlnum d || d == '_' || d == '.') && decide (o.val ≠ []) &&
  if o.quoted then o.val.all fun c => decide (c ≠ '"' ∧ c ≠ '\\') else (o.val.all fun c => !isSpace c) && decide (o.val.head? ≠ some '"')

theorem ok_of {o : Opt} (h : isOk o = true) : o.Ok := by
  obtain ⟨k, v, q⟩ := o
  unfold isOk at h
  simp only [Bool.and_eq_true] at h
  refine ⟨?_, by simpa using h.1.2, ?_⟩
  · cases k with
    | nil => simp at h
    | cons c r =>
      have h := h.1.1
      simp only [Bool.and_eq_true, List.all_eq_true] at h
      refine ⟨c, r, rfl, by simpa using h.1, ?_⟩
      intro d hd
      have := h.2 d hd
      simpa [or_assoc] using this
  · cases q with
    | true =>
      have h := h.2
      simp only [if_true, List.all_eq_true, decide_eq_true_eq] at h ⊢
      exact h
    | false =>
      have h := h.2
      simp only [Bool.false_eq_true, if_false, Bool.and_eq_true, List.all_eq_true, decide_eq_true_eq, Bool.not_eq_true'] at h ⊢
      exact h

theorem oks {os : List Opt} (h : os.all isOk = true) : ∀ o ∈ os, o.Ok := fun o ho => ok_of (List.all_eq_true.mp h o ho)

def toyOpts : List Opt := [opt "ID" "a", opt "ID" "b", opt "STYLE" "STREAM", opt "DESTINATION" "TRANSIENT", optq "inbound.nickname" "two words", opt "PORT" "80"]
example : line "SESSION" "CREATE" toyOpts = "SESSION CREATE ID=a ID=b STYLE=STREAM DESTINATION=TRANSIENT inbound.nickname=\"two words\" PORT=80".toList := by decide +kernel
example := C165_create_partial toyE toyOpts (oks (by decide +kernel)) "b".toList .stream (by decide +kernel) (by decide +kernel) (by decide +kernel) (fun h => absurd rfl h)
example : sessionOption toyOpts false "inbound.nickname" = some "two words".toList ∧ sessionOption toyOpts true "HOST" = some "127.0.0.1".toList := by decide +kernel
def toyRaw : List Opt := [opt "ID" "a", opt "STYLE" "RAW", opt "DESTINATION" "TRANSIENT", opt "PORT" "80"]
example := C165_create_partial toyE toyRaw (oks (by decide +kernel)) "a".toList .anonymous (by decide +kernel) (by decide +kernel) (by decide +kernel) (fun _ => by decide +kernel)
def toyKeys : String := "zz" ++ "aaaaaaaaaaaaaaaaaaaaaaaaaaaaaaaa" ++ "bbbbbbbbbbbbbbbbbbbbbbbbbbbbbbbb"
example := C165_keys_partial toyE [opt "ID" "a", opt "STYLE" "STREAM", opt "DESTINATION" toyKeys] (oks (by decide +kernel)) "a".toList .stream toyKeys.toList (toyKeys.toList.map fun c => UInt8.ofNat c.toNat)
  (List.replicate 32 97) (List.replicate 32 98) [] [122, 122] (by decide +kernel) (by decide +kernel) (by decide +kernel) (by decide +kernel) (fun h => absurd rfl h) (by decide +kernel) (by decide +kernel) rfl rfl
example := C165_short_keys toyE [opt "ID" "a", opt "STYLE" "STREAM", opt "DESTINATION" "zzkey"] (oks (by decide +kernel)) "zzkey".toList [122, 122, 107, 101, 121] [107, 101, 121] [122, 122]
  (by decide +kernel) (by decide +kernel) (by decide +kernel) (by decide +kernel) (by decide)
example := C165_refused toyE [opt "ID" "a", opt "STYLE" "RAW", opt "DESTINATION" "TRANSIENT"] (oks (by decide +kernel)) (.inr (.inr (.inr (by decide +kernel))))
example := C165_hello toyE [opt "MIN" "3.1", opt "MAX" "3.3"] (oks (by decide +kernel))
example : (last [opt "MIN" "3.1", opt "MAX" "3.3"] "MAX").bind version = some .v33 := by decide +kernel
example := C165_accept toyE toyOpts (oks (by decide +kernel)) "b".toList (by decide +kernel)
example := C165_lookup toyE [opt "NAME" "x.i2p"] (oks (by decide +kernel)) "x.i2p".toList (by decide +kernel)
example := C165_generate toyE [opt "SIGNATURE_TYPE" "7"] (oks (by decide +kernel))
example := C165_connect toyE [opt "ID" "a", opt "DESTINATION" "x.i2p"] (oks (by decide +kernel)) "a".toList "x.i2p".toList (.name "x.i2p".toList) (by decide +kernel) (by decide +kernel) (by decide +kernel)
example := C165_forward toyE toyOpts (oks (by decide +kernel)) "b".toList 80 (by decide +kernel) (by decide) (by decide +kernel)
example := C165_hyphen_violated toyE "STREAM" "ACCEPT" (by decide) (by decide) [opt "ID" "a"] (oks (by decide +kernel)) "x".toList "y=1 SILENT=true".toList ⟨'x', [], rfl, .inl (by decide), nofun⟩
/-- The option that follows is lost. -/
example : parse toyE "STREAM ACCEPT ID=a x-y=1 SILENT=true".toList = .ok (.accept "a".toList [("ID".toList, "a".toList)]) := by decide +kernel
example : parse toyE "STREAM ACCEPT ID=a SILENT=true".toList = .ok (.accept "a".toList [("SILENT".toList, "true".toList), ("ID".toList, "a".toList)]) := by decide +kernel
example := C165_escaped_violated toyE "a".toList "b".toList (by decide) (by decide)
example := C165_empty_violated toyE

example := C166_b32 toyE "http://" (by decide) "abc".toList (by decide) (by decide) [97, 98, 99] (by decide +kernel)
example := C166_ending_violated toyE "" (by decide) "abc".toList ".example.i2p".toList (by decide) (by decide) (by decide) [97, 98, 99] (by decide +kernel)
example := C166_length_violated toyE "abc".toList (by decide) (by decide) [97, 98, 99] (by decide +kernel) (by decide)
example := C166_name toyE "https://" (by decide) "x.y".toList (by decide) (by decide +kernel)
example := C166_dest toyE "zz".toList (by decide) [122, 122] [122, 122] [] (by decide +kernel) (by decide +kernel)
example : parse toyE "STREAM CONNECT ID=a DESTINATION=http://.b32.i2p".toList = .ok (.connect "a".toList (.b32 []) [("DESTINATION".toList, "http://.b32.i2p".toList), ("ID".toList, "a".toList)]) := by decide +kernel
example := C166_no_panic toyE "STREAM CONNECT ID=a DESTINATION=http://.b32.i2p".toList

/-- Every byte is a character. -/
def toyText (b : Bytes) : Option Str := some (b.map fun c => Char.ofNat c.toNat)
example := C167_read_partial toyE toyText "3.0 ".toUTF8.toList "a".toUTF8.toList "zz".toUTF8.toList [1, 32, 10, 2] (by decide +kernel) (by decide +kernel) (by decide +kernel) "a".toList "zz".toList (by decide +kernel) (by decide +kernel) [122, 122] [122, 122] [] (by decide +kernel) (by decide +kernel)
example : datagram toyE toyText [51, 46, 48, 32, 97, 32, 122, 122, 10, 1, 32, 10, 2] = .ok ⟨['a'], [122, 122], [1, 32, 10, 2]⟩ := by decide +kernel
example := (C167_panic_violated toyE toyText [51, 46, 48]).mpr (by decide)

end Emissary.SamParser

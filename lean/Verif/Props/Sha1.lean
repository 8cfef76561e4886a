import Verif.Lemmas.Sha1
/-
C72: the digest class computes SHA-1.
-/
namespace LibLAS.Sha1
open Spec.Sha1

/-- What a caller must get back from calls after it has passed the bytes `m`: at every request for a digest, SHA-1 of all
bytes passed before it, where a request itself passes the padding. -/
def Answers : List Byte → List Call → List (List Byte) → Prop
  | _, [], ds => ds = []
  | m, .add data :: rest, ds => Answers (m ++ data) rest ds
  | m, .digest :: rest, ds => ∃ ds', ds = digest m :: ds' ∧ Answers (m ++ padding m.length) rest ds'

/-- The bytes that calls pass, with the padding each digest adds (at most 72 bytes). -/
def total : List Call → Nat
  | [] => 0
  | .add data :: rest => data.length + total rest
  | .digest :: rest => 72 + total rest

theorem padding_length (n : Nat) : (padding n).length ≤ 72 := by
  simp only [padding, big, List.length_append, List.length_singleton, List.length_replicate, List.length_map,
    List.length_range]
  omega

theorem run_answers : ∀ (calls : List Call) (s : State) (m : List Byte), Holds s m → m.length + total calls < 2 ^ 32 →
    ∃ ds, run s calls = .ok ds ∧ Answers m calls ds
  | [], _, _, _, _ => ⟨[], rfl, rfl⟩
  | .add data :: rest, s, m, hs, ht => by
    obtain ⟨s', e, h⟩ := addBytes_holds hs data
    obtain ⟨ds, e2, h2⟩ := run_answers rest s' _ h (by simp [total] at ht ⊢; omega)
    exact ⟨ds, by rw [run, e, Outcome.bind_ok, e2], h2⟩
  | .digest :: rest, s, m, hs, ht => by
    obtain ⟨s', e, h⟩ := getDigest_holds hs
    have hm : m.length % 2 ^ 32 = m.length := Nat.mod_eq_of_lt (by omega)
    rw [hm] at e h
    have hl := padding_length m.length
    obtain ⟨ds, e2, h2⟩ := run_answers rest s' _ h (by rw [List.length_append]; simp only [total] at ht; omega)
    exact ⟨digest m :: ds, by rw [run, e, Outcome.bind_ok, e2]; rfl, ds, rfl, h2⟩

/-- **C72**, messages of any length: the message is padded with its length modulo 2^32, so that from 2^32 bytes on the
bytes hashed are not those of the standard. -/
theorem sha1_long (junk : List Byte) (hj : junk.length = 64) (pieces : List (List Byte)) :
    run (make junk) (pieces.map .add ++ [.digest])
      = .ok [out (hashValue (pieces.flatten ++ padding (pieces.flatten.length % 2 ^ 32)))] := by
  suffices H : ∀ (pieces : List (List Byte)) (s : State) (m : List Byte), Holds s m →
      run s (pieces.map .add ++ [.digest])
        = .ok [out (hashValue (m ++ pieces.flatten ++ padding ((m ++ pieces.flatten).length % 2 ^ 32)))] by
    simpa only [List.nil_append] using H pieces _ [] (make_holds junk hj)
  intro pieces
  induction pieces with
  | nil =>
    intro s m hs
    obtain ⟨s', e, -⟩ := getDigest_holds hs
    rw [List.flatten_nil, List.append_nil]
    simp only [List.map_nil, List.nil_append, run, e, Outcome.bind_ok]
  | cons p ps ih =>
    intro s m hs
    obtain ⟨s', e, h⟩ := addBytes_holds hs p
    rw [List.map_cons, List.cons_append, run, e, Outcome.bind_ok, ih s' _ h, List.flatten_cons, List.append_assoc m p]

/-- **C72.** A fresh object, whatever its memory held, given a message in pieces of any lengths (less than 2^32 bytes in
all) returns the SHA-1 digest of the message. -/
theorem sha1 (junk : List Byte) (hj : junk.length = 64) (pieces : List (List Byte)) (h : pieces.flatten.length < 2 ^ 32) :
    run (make junk) (pieces.map .add ++ [.digest]) = .ok [digest pieces.flatten] := by
  rw [sha1_long junk hj pieces, Nat.mod_eq_of_lt h, digest]

/-- **C72.** Every history of calls: each digest is SHA-1 of everything passed before it. The bytes that an earlier digest
added to fill its last block count among them: `padding`. -/
theorem sha1_history (junk : List Byte) (hj : junk.length = 64) (calls : List Call) (h : total calls < 2 ^ 32) :
    ∃ ds, run (make junk) calls = .ok ds ∧ Answers [] calls ds :=
  run_answers calls _ [] (make_holds junk hj) (by simpa using h)

/-- The three letters `abc` in two pieces (FIPS 180-4 gives this digest), computed from the code ... -/
example : run (make (List.replicate 64 0xAA)) [.add [0x61], .add [0x62, 0x63], .digest]
    = .ok [[0xa9,0x99,0x3e,0x36,0x47,0x06,0x81,0x6a,0xba,0x3e,0x25,0x71,0x78,0x50,0xc2,0x6c,0x9c,0xd0,0xd8,0x9d]] := by
  decide +kernel

/-- ... and so of the specification. -/
example : digest [0x61, 0x62, 0x63]
    = [0xa9,0x99,0x3e,0x36,0x47,0x06,0x81,0x6a,0xba,0x3e,0x25,0x71,0x78,0x50,0xc2,0x6c,0x9c,0xd0,0xd8,0x9d] := by
  have h := sha1 (List.replicate 64 0xAA) (by simp) [[0x61], [0x62, 0x63]] (by decide)
  have e : run (make (List.replicate 64 0xAA)) ([[0x61], [0x62, 0x63]].map .add ++ [.digest])
      = .ok [[0xa9,0x99,0x3e,0x36,0x47,0x06,0x81,0x6a,0xba,0x3e,0x25,0x71,0x78,0x50,0xc2,0x6c,0x9c,0xd0,0xd8,0x9d]] := by
    decide +kernel
  have hf : [[0x61], [0x62, 0x63]].flatten = ([0x61, 0x62, 0x63] : List Byte) := rfl
  rw [hf] at h
  exact (List.cons.inj (Outcome.ok.inj (h.symm.trans e))).1

/-- **C72**, refuted for a second request: asking twice gives two different answers. -/
theorem second_digest_differs : ∃ d d', run (make (List.replicate 64 0)) [.add [0x61], .digest, .digest] = .ok [d, d'] ∧ d ≠ d' :=
  ⟨[0x86,0xf7,0xe4,0x37,0xfa,0xa5,0xa7,0xfc,0xe1,0x5d,0x1d,0xdc,0xb9,0xea,0xea,0xea,0x37,0x76,0x67,0xb8],
   [0xce,0x30,0x27,0x05,0xa4,0xfa,0x9e,0x1f,0x03,0xdb,0x51,0xec,0xa1,0x55,0x02,0xb7,0x14,0xf9,0x3d,0x3c], by decide +kernel, by decide⟩

end LibLAS.Sha1

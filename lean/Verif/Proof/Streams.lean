import Verif.Props.StreamsSpec
import Mathlib.Data.List.Basic

/-! Helper lemmas for C07, C08, C56. -/
namespace Verif.StreamsProof
open Verif Verif.Streams Verif.StreamsSpec

theorem readLe_write (w n : Nat) (rest : Bytes) :
    readLe w (leBytes w n ++ rest) = some (n % 256 ^ w, rest) := by
  unfold readLe
  have h1 : ¬ (leBytes w n ++ rest).length < w := by simp [leBytes_length]
  rw [if_neg h1]
  have h2 : (leBytes w n ++ rest).take w = leBytes w n := by
    rw [List.take_left' (leBytes_length w n)]
  have h3 : (leBytes w n ++ rest).drop w = rest := by
    rw [List.drop_left' (leBytes_length w n)]
  rw [h2, h3, leNat_leBytes]

theorem readN_write {α β : Type} (wr : α → Bytes) (rd : Bytes → Option (β × Bytes)) (f : α → β)
    (h : ∀ x rest, rd (wr x ++ rest) = some (f x, rest)) (xs : List α) (rest : Bytes) :
    readN rd xs.length (xs.flatMap wr ++ rest) = some (xs.map f, rest) := by
  induction xs with
  | nil => rfl
  | cons x xs ih =>
    simp only [List.length_cons, List.flatMap_cons, List.append_assoc, readN, h, List.map_cons]
    simp only [Option.bind_eq_bind, Option.bind_some, ih]

theorem readTag_write (t : Tag) (rest : Bytes) : readTag (writeTag t ++ rest) = some (t, rest) := by
  unfold readTag writeTag
  have h1 : t.key.toNat % 256 ^ 4 = t.key.toNat := Nat.mod_eq_of_lt (by have := t.key.toNat_lt; omega)
  have h2 : t.value.toNat % 256 ^ 4 = t.value.toNat := Nat.mod_eq_of_lt (by have := t.value.toNat_lt; omega)
  simp only [List.append_assoc, readLe_write, Option.bind_eq_bind, Option.bind_some, h1, h2]
  simp

theorem readCoord_write (c : Coord) (rest : Bytes) : readCoord (writeCoord c ++ rest) = some (c, rest) := by
  unfold readCoord writeCoord
  have h1 : c.lat.toNat % 256 ^ 8 = c.lat.toNat := Nat.mod_eq_of_lt (by have := c.lat.toNat_lt; omega)
  have h2 : c.lon.toNat % 256 ^ 8 = c.lon.toNat := Nat.mod_eq_of_lt (by have := c.lon.toNat_lt; omega)
  simp only [List.append_assoc, readLe_write, Option.bind_eq_bind, Option.bind_some, h1, h2]
  simp

theorem readVec_write {α : Type} (wr : α → Bytes) (rd : Bytes → Option (α × Bytes))
    (h : ∀ x rest, rd (wr x ++ rest) = some (x, rest)) (xs : List α) (hx : xs.length < 65536) (rest : Bytes) :
    readVec rd (writeVec wr xs ++ rest) = some (xs, rest) := by
  unfold readVec writeVec
  have h1 : xs.length % 256 ^ 2 = xs.length := Nat.mod_eq_of_lt (by omega)
  simp only [List.append_assoc, readLe_write, Option.bind_eq_bind, Option.bind_some, h1]
  rw [readN_write wr rd _root_.id h]
  simp

theorem dropWhile_type (ty : UInt8) (h : isSpace ty = false) (bs : Bytes) :
    (ty :: bs).dropWhile isSpace = ty :: bs := by
  simp [List.dropWhile_cons, h]

mutual
theorem readElementAux_write (e : Element Coord) (hf : Fits e) (fuel : Nat)
    (hfuel : (writeElement e).length ≤ fuel) (rest : Bytes) :
    readElementAux fuel (writeElement e ++ rest) = .ok (e.withId 0, rest) := by
  match e with
  | .node i tags c =>
    cases fuel with
    | zero => simp [writeElement] at hfuel
    | succ fuel =>
      simp only [Fits] at hf
      simp only [writeElement, List.cons_append, readElementAux, dropWhile_type 0 (by decide), if_true,
        List.append_assoc, readVec_write _ _ readTag_write tags hf, readCoord_write, Option.bind_eq_bind,
        Option.bind_some]
      rfl
  | .way i tags cs =>
    cases fuel with
    | zero => simp [writeElement] at hfuel
    | succ fuel =>
      simp only [Fits] at hf
      simp only [writeElement, List.cons_append, readElementAux, dropWhile_type 1 (by decide),
        List.append_assoc, readVec_write _ _ readTag_write tags hf.1, readVec_write _ _ readCoord_write cs hf.2,
        Option.bind_eq_bind, Option.bind_some]
      rfl
  | .area i tags cs =>
    cases fuel with
    | zero => simp [writeElement] at hfuel
    | succ fuel =>
      simp only [Fits] at hf
      simp only [writeElement, List.cons_append, readElementAux, dropWhile_type 2 (by decide),
        List.append_assoc, readVec_write _ _ readTag_write tags hf.1, readVec_write _ _ readCoord_write cs hf.2,
        Option.bind_eq_bind, Option.bind_some]
      rfl
  | .relation i tags ms =>
    cases fuel with
    | zero => simp [writeElement] at hfuel
    | succ fuel =>
      simp only [Fits] at hf
      have hlen : (writeMembers ms).length ≤ fuel := by
        simp only [writeElement, List.length_cons, List.length_append] at hfuel; omega
      have h1 : ms.length % 256 ^ 2 = ms.length := Nat.mod_eq_of_lt (by omega)
      simp only [writeElement, List.cons_append, readElementAux, dropWhile_type 3 (by decide),
        List.append_assoc, readVec_write _ _ readTag_write tags hf.1, readLe_write, h1,
        Option.bind_eq_bind, Option.bind_some, readMembers_write ms hf.2.2 fuel hlen]
      rfl

theorem readMembers_write (ms : List (Element Coord)) (hf : FitsAll ms) (fuel : Nat)
    (hfuel : (writeMembers ms).length ≤ fuel) (rest : Bytes) :
    readMembers (readElementAux fuel) ms.length (writeMembers ms ++ rest) = .ok (ms, rest) := by
  match ms with
  | [] => simp [readMembers, writeMembers]
  | m :: ms =>
    simp only [FitsAll] at hf
    have hl : (writeElement m).length ≤ fuel ∧ (writeMembers ms).length ≤ fuel := by
      simp only [writeMembers, List.length_append] at hfuel; omega
    have h1 : m.id.toNat % 256 ^ 8 = m.id.toNat := Nat.mod_eq_of_lt (by have := m.id.toNat_lt; omega)
    simp only [List.length_cons, writeMembers, List.append_assoc, readMembers, readLe_write, h1,
      readElementAux_write m hf.1 fuel hl.1, readMembers_write ms hf.2 fuel hl.2]
    simp only [UInt64.ofNat_toNat]
    cases m <;> rfl
end

/-! ### meshes -/

theorem readInt_write (x : UInt32) (rest : Bytes) : readInt (writeInt x ++ rest) = some (x, rest) := by
  unfold readInt writeInt
  have h1 : x.toNat % 256 ^ 4 = x.toNat := Nat.mod_eq_of_lt (by have := x.toNat_lt; omega)
  simp [readLe_write, h1]

theorem readDouble_write {D : Type} (fc : FloatConv D) (x : D) (rest : Bytes) :
    readDouble fc (writeDouble fc x ++ rest) = some (fc.ofFloat (fc.toFloat x), rest) := by
  unfold readDouble writeDouble
  simp [readInt_write]

theorem readVec32_write {α β : Type} (wr : α → Bytes) (rd : Bytes → Option (β × Bytes)) (f : α → β)
    (h : ∀ x rest, rd (wr x ++ rest) = some (f x, rest)) (xs : List α) (hx : xs.length < 2 ^ 32) (rest : Bytes) :
    readVec32 rd (writeVec32 wr xs ++ rest) = some (xs.map f, rest) := by
  unfold readVec32 writeVec32
  have h1 : xs.length % 256 ^ 4 = xs.length := Nat.mod_eq_of_lt (by omega)
  simp only [List.append_assoc, readLe_write, Option.bind_eq_bind, Option.bind_some, h1]
  rw [readN_write wr rd f h]

theorem readLine_write (name rest : Bytes) (h : (0 : UInt8) ∉ name) :
    readLine (name.takeWhile (· ≠ 0) ++ 0 :: rest) = some (name, rest) := by
  have e : name.takeWhile (· ≠ 0) = name := by
    have := List.takeWhile_append_of_pos (p := fun x : UInt8 => decide (x ≠ 0)) (l₁ := name) (l₂ := [])
      (fun x hx => by have : x ≠ 0 := by rintro rfl; exact h hx
                      simpa using this)
    simpa using this
  rw [e]
  unfold readLine
  have hne : name ++ 0 :: rest ≠ [] := by simp
  have h1 : (name ++ 0 :: rest).takeWhile (· ≠ 0) = name := by
    rw [List.takeWhile_append_of_pos]
    · simp
    · intro x hx
      have : x ≠ 0 := by rintro rfl; exact h hx
      simpa using this
  have h2 : (name ++ 0 :: rest).dropWhile (· ≠ 0) = 0 :: rest := by
    rw [List.dropWhile_append_of_pos]
    · simp
    · intro x hx
      have : x ≠ 0 := by rintro rfl; exact h hx
      simpa using this
  split
  · rename_i he; exact absurd he hne
  · rw [h1, h2]; rfl

/-! ### bitmaps -/

theorem readBitset_write (b : Bitset) (h : b.buffer.length < 2 ^ 64) (rest : Bytes) :
    readBitset (writeBitset b ++ rest) = some (b, rest) := by
  unfold readBitset writeBitset
  have h1 : b.sizeInBits.toNat % 256 ^ 8 = b.sizeInBits.toNat :=
    Nat.mod_eq_of_lt (by have := b.sizeInBits.toNat_lt; omega)
  have h2 : b.buffer.length % 256 ^ 8 = b.buffer.length := Nat.mod_eq_of_lt (by omega)
  simp only [List.append_assoc, readLe_write, Option.bind_eq_bind, Option.bind_some, h1, h2]
  rw [readN_write writeInt readInt _root_.id readInt_write]
  simp

theorem writeBitmap_length_pos (e : UInt32 × Bitset) (m : Assoc UInt32 Bitset) :
    (writeBitmap m).length < (writeBitmap (e :: m)).length ∧ ∃ b bs, writeBitmap (e :: m) = b :: bs := by
  constructor
  · simp only [writeBitmap, List.flatMap_cons, List.length_append, writeInt, leBytes_length]; omega
  · simp only [writeBitmap, List.flatMap_cons, writeInt, leBytes, List.cons_append]
    exact ⟨_, _, rfl⟩

theorem readBitmapLoop_write (m : Assoc UInt32 Bitset) (hb : ∀ e ∈ m, e.2.buffer.length < 2 ^ 64)
    (hn : (m.map (·.1)).Nodup) (fuel : Nat) (hfuel : (writeBitmap m).length < fuel) (key : UInt32) (size : UInt64)
    (acc : Assoc UInt32 Bitset) (hk : m = [] → acc.find key ≠ none) (hd : ∀ e ∈ m, acc.find e.1 = none) :
    readBitmapLoop fuel key size acc (writeBitmap m) = some (m.reverse ++ acc) := by
  induction m generalizing fuel key size acc with
  | nil =>
    cases fuel with
    | zero => simp at hfuel
    | succ fuel =>
      simp only [writeBitmap, List.flatMap_nil, readBitmapLoop, Assoc.emplace]
      split
      · rfl
      · rename_i h; exact absurd h (hk rfl)
  | cons e m ih =>
    obtain ⟨k, b⟩ := e
    cases fuel with
    | zero => simp at hfuel
    | succ fuel =>
      obtain ⟨hlt, b0, bs0, hcons⟩ := writeBitmap_length_pos (k, b) m
      have hstep : readBitmapLoop (fuel + 1) key size acc (writeBitmap ((k, b) :: m)) =
          readBitmapLoop fuel k b.sizeInBits (acc.emplace k b) (writeBitmap m) := by
        have hform : writeBitmap ((k, b) :: m) = writeInt k ++ (writeBitset b ++ writeBitmap m) := by
          simp [writeBitmap, List.flatMap_cons]
        conv_lhs => unfold readBitmapLoop
        split
        · rename_i h; rw [hcons] at h; simp at h
        · rw [hform]
          simp only [readInt_write, Option.bind_eq_bind, Option.bind_some,
            readBitset_write b (hb (k, b) (by simp))]
      rw [hstep]
      simp only [List.map_cons, List.nodup_cons] at hn
      have hnone : acc.find k = none := hd (k, b) (by simp)
      have hem : acc.emplace k b = (k, b) :: acc := by unfold Assoc.emplace; rw [hnone]
      rw [hem, ih (fun e he => hb e (List.mem_cons_of_mem _ he)) hn.2 fuel (by omega)]
      · simp
      · simp [Assoc.find]
      · intro e he
        rw [Assoc.find_cons]
        have : k ≠ e.1 := by rintro rfl; exact hn.1 (List.mem_map.2 ⟨e, he, rfl⟩)
        simp [this, hd e (List.mem_cons_of_mem _ he)]

end Verif.StreamsProof

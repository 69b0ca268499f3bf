import Verif.Props.Limits
import Verif.Props.Strips
import Verif.Props.Runs
/-!
# Decoders that are used more than once

C42.
-/

namespace Zune
open Spec

/-- `d'` is the decoder `d` except that it may hold Huffman tables in slots that are empty in `d`. -/
structure Spec.MoreTables (d d' : Decoder) : Prop where
  rest : d' = { d with dcTables := d'.dcTables, acTables := d'.acTables }
  dcLen : d'.dcTables.length = d.dcTables.length
  acLen : d'.acTables.length = d.acTables.length
  dc : ∀ (i : Nat) (t : HuffmanTable), d.dcTables[i]? = some (some t) → d'.dcTables[i]? = some (some t)
  ac : ∀ (i : Nat) (t : HuffmanTable), d.acTables[i]? = some (some t) → d'.acTables[i]? = some (some t)

theorem fillTables_eq {l l' : List (Option HuffmanTable)} (hlen : l'.length = l.length)
    (h : ∀ (i : Nat) (t : HuffmanTable), l[i]? = some (some t) → l'[i]? = some (some t)) :
    fillTables (fun i => l'.getD i none) l = l' := by
  unfold fillTables
  apply List.ext_getElem?
  intro i
  rw [List.getElem?_mapIdx]
  rcases hl : l[i]? with _ | _ | t
  · rw [List.getElem?_eq_none_iff] at hl
    rw [List.getElem?_eq_none (by omega)]
    rfl
  · have hi := (List.getElem?_eq_some_iff.1 hl).1
    rw [Option.map_some, Option.none_or]
    dsimp only
    rw [List.getD_eq_getElem?_getD, List.getElem?_eq_getElem (by omega), Option.getD_some]
  · rw [h i t hl]
    rfl

/-- What is there stays there. -/
theorem fillTables_more (x : Nat → Option HuffmanTable) (l : List (Option HuffmanTable)) :
    (fillTables x l).length = l.length ∧
    ∀ (i : Nat) (t : HuffmanTable), l[i]? = some (some t) → (fillTables x l)[i]? = some (some t) :=
  ⟨List.length_mapIdx, fun _ _ h => fillTables_some h⟩

/-- **C42 (partial).** Huffman tables that an earlier use of the decoder has left behind do not change
any image that is decoded without them: for all decoders, tables and buffers, the bytes are the same
and the decoders again differ only in such tables. Missing: what an earlier frame header, scan header
or restart interval leaves behind; there the property is false, see `c42_false`. -/
theorem c42_partial {d d' e : Decoder} (h : MoreTables d d') {buf v : List UInt8}
    (hd : d.decodeBuffer buf = (.ok v, e)) :
    ∃ e', d'.decodeBuffer buf = (.ok v, e') ∧ MoreTables e e' := by
  let r : Relax := ⟨id, id, id, Nat.le_refl, Nat.le_refl, Nat.le_refl, true, id,
    fun i => d'.dcTables.getD i none, fun i => d'.acTables.getD i none⟩
  have he : r.dec d = d' := by
    rw [h.rest]
    unfold Relax.dec Relax.opts
    simp only [r, Bool.and_true, id]
    rw [fillTables_eq h.dcLen h.dc, fillTables_eq h.acLen h.ac]
  have hk := Relax.decodeBuffer r hd
  rw [he] at hk
  refine ⟨_, hk, ?_, (fillTables_more _ _).1, (fillTables_more _ _).1, (fillTables_more _ _).2,
    (fillTables_more _ _).2⟩
  unfold Relax.dec Relax.opts
  simp only [r, Bool.and_true, id]

/-- A decoder with tables of an earlier use: the headers of a file that breaks off after a DHT
segment. -/
example : let d := Decoder.new ⟨false, false⟩
    let d' := (d.readHeaders ([0xFF, 0xD8, 0xFF, 0xC4, 0x00, 0x14, 0x00, 1] ++
      List.replicate 15 0 ++ [5])).2
    d' = { d with dcTables := d'.dcTables } ∧ d'.dcTables.map Option.isSome = [true, false, false, false]
      ∧ d.dcTables = [none, none, none, none] ∧
      (d'.decodeBuffer tinyFile).1 = .ok (List.replicate 64 128) := by
  decide +kernel

/-- **C42** is false: a new decoder decodes a colour file; one that has decoded a grayscale file before
returns a third of the bytes. -/
theorem c42_false :
    ((Decoder.new ⟨false, false⟩).decodeBuffer (threeFile 8 8 [] ([0x79, 0x00] ++
      List.replicate 12 0))).1 = .ok ((List.replicate 64 [135, 138, 122]).flatten) ∧
    (((Decoder.new ⟨false, false⟩).decodeBuffer (grayFile 8 [0x3F])).2.decodeBuffer
      (threeFile 8 8 [] ([0x79, 0x00] ++ List.replicate 12 0))).1 = .ok (List.replicate 64 135) := by
  decide +kernel

end Zune

import Verif.Theory.CborParsed
import Verif.Theory.CborLater
import Verif.Props.Meaning
/-!
# Documents in CBOR (feature `minicbor`)

C57.
-/

namespace Knuffel
open Cbor

/-! ## C57: encoding and decoding -/

/-- A document that is encoded is decoded to itself, and what follows it is left for the next
decoder; the type names have to be ones that can be read. -/
theorem c57_roundtrip (d : Document (Sp Nat)) (h : d.Meets Sp.Usize ReadableType)
    (hl : (encDocument spanCodec d).length < 2 ^ 64) (rest : List UInt8) :
    decDocument spanCodec (encDocument spanCodec d ++ rest) = some (d, rest) :=
  reads_document (h.mono (fun _ => good_span) readable_roundtrip) hl rest

/-- The same with lines and columns. -/
theorem c57_roundtrip_line (d : Document (Sp LinePos)) (h : d.Meets Sp.LineUsize ReadableType)
    (hl : (encDocument lineSpanCodec d).length < 2 ^ 64) (rest : List UInt8) :
    decDocument lineSpanCodec (encDocument lineSpanCodec d ++ rest) = some (d, rest) :=
  reads_document (h.mono (fun _ => good_lineSpan) readable_roundtrip) hl rest

/-- A document parsed from a text survives encoding and decoding. -/
theorem c57_parsed (text : Str) (d : Document (Sp Nat)) (h : parseAst text = some (.ok d)) (ht : byteLen text < 2 ^ 64)
    (hl : (encDocument spanCodec d).length < 2 ^ 64) :
    decDocument spanCodec (encDocument spanCodec d) = some (d, []) := by
  have := c57_roundtrip d (parsed_meets h ht) hl []
  rwa [List.append_nil] at this

/-- The same with lines and columns, if they are numbers of the machine. -/
theorem c57_parsed_line (width : Char → Nat) (strWidth : Str → Nat) (text : Str) (d : Document (Sp LinePos))
    (h : parseAstLine width strWidth text = some (.ok d)) (ht : ∀ i, (linePos width (text.take i)).Usize)
    (hl : (encDocument lineSpanCodec d).length < 2 ^ 64) :
    decDocument lineSpanCodec (encDocument lineSpanCodec d) = some (d, []) := by
  have := c57_roundtrip_line d (parsed_meets_line h ht) hl []
  rwa [List.append_nil] at this

/-- Whatever bytes are decoded, the result is a document like those: its type names can be read,
its properties are in order, each once. -/
theorem c57_decoded (bytes rest : List UInt8) (d : Document (Sp Nat)) (h : decDocument spanCodec bytes = some (d, rest)) :
    d.Meets Sp.Usize ReadableType :=
  (gets_document gets_spanCodec bytes d rest h).2

/-- The same with lines and columns. -/
theorem c57_decoded_line (bytes rest : List UInt8) (d : Document (Sp LinePos)) (h : decDocument lineSpanCodec bytes = some (d, rest)) :
    d.Meets Sp.LineUsize ReadableType :=
  (gets_document gets_lineSpanCodec bytes d rest h).2

/-- Different documents have different encodings. -/
theorem c57_injective (d d' : Document (Sp Nat)) (h : d.Meets Sp.Usize ReadableType) (h' : d'.Meets Sp.Usize ReadableType)
    (hl : (encDocument spanCodec d).length < 2 ^ 64) (he : encDocument spanCodec d = encDocument spanCodec d') : d = d' := by
  have h1 := c57_roundtrip d h hl []
  rw [he] at hl h1
  rw [c57_roundtrip d' h' hl []] at h1
  cases h1
  rfl

/-- The encoding is CBOR: the bytes are the encoding of the data item that `documentItem` says,
with heads as short as possible. -/
theorem c57_format (d : Document (Sp Nat)) (h : d.Meets Sp.Usize fun _ => True) (hl : (encDocument spanCodec d).length < 2 ^ 64) :
    Encodes (documentItem spanItem d) (encDocument spanCodec d) :=
  writes_document (h.mono (fun _ => writes_span) fun _ h => h) hl

/-- The same with lines and columns. -/
theorem c57_format_line (d : Document (Sp LinePos)) (h : d.Meets Sp.LineUsize fun _ => True)
    (hl : (encDocument lineSpanCodec d).length < 2 ^ 64) :
    Encodes (documentItem lineSpanItem d) (encDocument lineSpanCodec d) :=
  writes_document (h.mono (fun _ => writes_lineSpan) fun _ h => h) hl

/-- More is read than is written: heads may be longer than necessary, and whatever data items follow
the known fields of a document, a node, a value, a literal, something with a span, or a span are
passed over (`DocumentBytes`). -/
theorem c57_later (d : Document (Sp Nat)) (h : d.Meets (fun _ => True) ReadableType) (bytes : List UInt8)
    (hb : DocumentBytes SpanBytes d bytes) (rest : List UInt8) : decDocument spanCodec (bytes ++ rest) = some (d, rest) :=
  yields_document (h.mono (fun s _ => spans_span s) readable_roundtrip) bytes hb rest

/-- The same with lines and columns. -/
theorem c57_later_line (d : Document (Sp LinePos)) (h : d.Meets (fun _ => True) ReadableType) (bytes : List UInt8)
    (hb : DocumentBytes LineSpanBytes d bytes) (rest : List UInt8) : decDocument lineSpanCodec (bytes ++ rest) = some (d, rest) :=
  yields_document (h.mono (fun s _ => spans_lineSpan s) readable_roundtrip) bytes hb rest

/-- A document with the type name `usize`, made by hand. -/
def cborUsizeDoc : Document (Sp Nat) :=
  ⟨[⟨⟨0, 8⟩, .mk (some ⟨⟨1, 6⟩, .builtin .usize⟩) ⟨⟨7, 8⟩, ['n']⟩ [] [] none⟩]⟩

/-- A type name made by hand that cannot be read is not decoded to itself (C27). -/
theorem c57_handmade_fails : ¬ ∀ d : Document (Sp Nat), (d.Meets Sp.Usize fun _ => True) → (encDocument spanCodec d).length < 2 ^ 64 →
    decDocument spanCodec (encDocument spanCodec d) = some (d, []) := by
  intro h
  have h1 := c57_decoded _ _ _ (h cborUsizeDoc ⟨⟨by decide, by decide⟩, by unfold Node.Meets; simp [Sp.Usize, ChildrenMeet], trivial⟩ (by decide +kernel))
  have h2 := h1.2.1
  unfold Node.Meets at h2
  exact (h2.1 _ rfl).2.1 rfl

/-! ### Examples -/

/-- Type names, arguments, properties and children. -/
def cborText : Str := "(t)n 1.5 k=(u8)0xff { m null true; }".toList

example : ∃ d, parseAst cborText = some (.ok d) ∧ byteLen cborText < 2 ^ 64 ∧ (encDocument spanCodec d).length = 105 ∧
    d.Meets Sp.Usize ReadableType ∧ decDocument spanCodec (encDocument spanCodec d) = some (d, []) := by
  obtain ⟨d, h, hd⟩ := of_parse (text := cborText) (fun d => decide ((encDocument spanCodec d).length = 105)) (by decide +kernel)
  have hd : (encDocument spanCodec d).length = 105 := by simpa using hd
  have ht : byteLen cborText < 2 ^ 64 := by decide +kernel
  exact ⟨d, h, ht, hd, parsed_meets h ht, c57_parsed _ d h ht (by rw [hd]; decide)⟩

/-- The bytes of a small document. -/
def cborDoc : Document (Sp Nat) :=
  ⟨[⟨⟨0, 3⟩, .mk none ⟨⟨0, 1⟩, ['n']⟩ [⟨none, ⟨⟨2, 3⟩, .int .dec ['1']⟩⟩] [] none⟩]⟩

example : cborDoc.Meets Sp.Usize ReadableType ∧ encDocument spanCodec cborDoc =
    [0x81, 0x81, 0x82, 0x82, 0x00, 0x03, 0x84, 0xf6, 0x82, 0x82, 0x00, 0x01, 0x61, 0x6e,
      0x81, 0x82, 0xf6, 0x82, 0x82, 0x02, 0x03, 0x82, 0x02, 0x81, 0x82, 0x0a, 0x61, 0x31, 0xa0] := by
  refine ⟨⟨⟨by decide, by decide⟩, ?_, trivial⟩, by decide +kernel⟩
  unfold Node.Meets
  simp [Sp.Usize, ChildrenMeet, Value.Meets]

/-- With lines and columns. -/
def cborLineDoc : Document (Sp LinePos) :=
  ⟨[⟨⟨⟨0, 0, 0⟩, ⟨1, 0, 1⟩⟩, .mk (some ⟨⟨⟨0, 0, 0⟩, ⟨1, 0, 1⟩⟩, .custom ['t']⟩) ⟨⟨⟨0, 0, 0⟩, ⟨1, 0, 1⟩⟩, ['n']⟩ [] [] none⟩]⟩

example : cborLineDoc.Meets Sp.LineUsize ReadableType ∧ (encDocument lineSpanCodec cborLineDoc).length < 2 ^ 64 := by
  refine ⟨⟨⟨⟨by decide, by decide, by decide⟩, by decide, by decide, by decide⟩, ?_, trivial⟩, by decide +kernel⟩
  unfold Node.Meets
  simp [Sp.LineUsize, LinePos.Usize, ChildrenMeet, ReadableType, builtinTypeNames]

example : ∀ i, (linePos (fun _ => 1) ("n\n\tm".toList.take i)).Usize := by
  intro i
  rcases Nat.lt_or_ge i 5 with h | h
  · revert h; revert i; unfold LinePos.Usize; decide +kernel
  · rw [List.take_of_length_le (by simpa using by omega)]
    unfold LinePos.Usize; decide +kernel

/-- The document of `n 1`, of a later version: the document has a second field, the text `v2`; the node has
no children and a sixth field, a map from -1 to a tagged array; the number 1 is written with two bytes. -/
def laterBytes : List UInt8 :=
  [0x82, 0x81, 0x82, 0x82, 0x00, 0x18, 0x01, 0x86, 0xf6, 0x82, 0x82, 0x00, 0x18, 0x01, 0x61, 0x6e, 0x80, 0xa0,
    0xf6, 0xa1, 0x20, 0xc1, 0x82, 0xf5, 0x00] ++ [0x62, 0x76, 0x32]
/-- What was meant. -/
def laterDoc : Document (Sp Nat) := ⟨[⟨⟨0, 1⟩, .mk none ⟨⟨0, 1⟩, ['n']⟩ [] [] none⟩]⟩

private theorem short {major n : Nat} {b : UInt8} (h : b.toNat = major * 32 + n) (hn : n ≤ 23) : AnyHead major n [b] :=
  ⟨b, [], n, rfl, h, .inl ⟨hn, rfl, rfl⟩⟩

example : laterDoc.Meets (fun _ => True) ReadableType ∧ DocumentBytes SpanBytes laterDoc laterBytes := by
  refine ⟨⟨trivial, by unfold Node.Meets; simp [ChildrenMeet], trivial⟩, ?_⟩
  have hone : AnyHead 0 1 [0x18, 0x01] := ⟨0x18, [0x01], 24, rfl, rfl, .inr (.inl ⟨rfl, rfl, rfl⟩)⟩
  have hspan : SpanBytes ⟨0, 1⟩ [0x82, 0x00, 0x18, 0x01] :=
    ⟨[0x82], _, 0, [], short rfl (by decide), ⟨[0x00], _, short rfl (by decide), ⟨_, _, hone, rfl, rfl⟩, rfl⟩, .nil, rfl⟩
  have hname : Record [SpanBytes ⟨0, 1⟩, TextBytes ['n']] [0x82, 0x82, 0x00, 0x18, 0x01, 0x61, 0x6e] :=
    ⟨[0x82], _, 0, [], short rfl (by decide), ⟨_, [0x61, 0x6e], hspan, ⟨[0x61, 0x6e], [], ⟨[0x61], short rfl (by decide), by decide +kernel⟩,
      rfl, rfl⟩, rfl⟩, .nil, rfl⟩
  have hmap : WellFormed [0xa1, 0x20, 0xc1, 0x82, 0xf5, 0x00] :=
    .map (n := 1) (h := [0xa1]) (short rfl (by decide))
      (.cons (a := [0x20]) (.negative (n := 0) (short rfl (by decide)))
        (.cons (a := [0xc1, 0x82, 0xf5, 0x00]) (b := []) (.tag (n := 1) (h := [0xc1]) (short rfl (by decide))
          (.array (n := 2) (h := [0x82]) (short rfl (by decide))
            (.cons (a := [0xf5]) (.simple (n := 21) (short rfl (by decide)))
              (.cons (a := [0x00]) (b := []) (.unsigned (n := 0) (short rfl (by decide))) .nil)))) .nil))
  have hnode : NodeBytes SpanBytes (.mk none ⟨⟨0, 1⟩, ['n']⟩ [] [] none)
      [0x86, 0xf6, 0x82, 0x82, 0x00, 0x18, 0x01, 0x61, 0x6e, 0x80, 0xa0, 0xf6, 0xa1, 0x20, 0xc1, 0x82, 0xf5, 0x00] := by
    unfold NodeBytes
    refine ⟨[0x86], [0xf6, 0x82, 0x82, 0x00, 0x18, 0x01, 0x61, 0x6e, 0x80, 0xa0], 2, _, short rfl (by decide), ?_, ?_, rfl⟩
    · exact ⟨[0xf6], _, rfl, ⟨_, [0x80, 0xa0], hname, ⟨[0x80], _, ⟨[0x80], [], short rfl (by decide), rfl, rfl⟩,
        ⟨[0xa0], [], ⟨[0xa0], [], short rfl (by decide), rfl, rfl⟩, rfl, rfl⟩, rfl⟩, rfl⟩, rfl⟩
    · unfold ChildrenBytes
      exact .inr ⟨1, _, rfl, .cons (b := []) hmap .nil, rfl⟩
  refine ⟨[0x82], _, 1, [0x62, 0x76, 0x32], short rfl (by decide), ⟨_, [], ⟨[0x81],
    [0x82, 0x82, 0x00, 0x18, 0x01, 0x86, 0xf6, 0x82, 0x82, 0x00, 0x18, 0x01, 0x61, 0x6e, 0x80, 0xa0,
      0xf6, 0xa1, 0x20, 0xc1, 0x82, 0xf5, 0x00], short rfl (by decide), ?_, rfl⟩, rfl, rfl⟩,
    .cons (b := []) (.text (s := ['v', '2']) (h := [0x62]) (short (by decide +kernel) (by decide +kernel))) .nil, rfl⟩
  unfold NodesBytes
  refine ⟨_, [], ⟨[0x82], _, 0, [], short rfl (by decide), ⟨_, _, hspan, ⟨_, [], hnode, rfl, rfl⟩, rfl⟩, .nil, rfl⟩, ?_, rfl⟩
  unfold NodesBytes
  rfl

end Knuffel

import Verif.Spec.Fields
/-
Which inputs Unmarshal accepts and how it rejects the others, as a relation between the input and the declared fields:
without the contents of the message and without the decode functions.
-/
namespace Pb.Spec

/-- `NoVarint s e`: no varint can be read at the start of `s`, because of `e`. -/
inductive NoVarint : Bytes → Err → Prop
  /-- the input ends before the last byte of the varint -/
  | eof (s) : (∀ c ∈ s, 128 ≤ c.toNat) → NoVarint s .unexpectedEOF
  /-- more than ten bytes, or 2^64 and more -/
  | overflow (p r n) : Varint p n → ¬ (p.length ≤ 10 ∧ n < 2 ^ 64) → NoVarint (p ++ r) .varintOverflow

/-- `NoPayload wt s e`: no payload of wire type `wt` can be read at the start of `s`, because of `e`. -/
inductive NoPayload : Nat → Bytes → Err → Prop
  | varint (s e) : NoVarint s e → NoPayload 0 s e
  | fixed64 (s) : s.length < 8 → NoPayload 1 s .unexpectedEOF
  | length (s e) : NoVarint s e → NoPayload 2 s e
  | body (p s n) : Varint64 p n → s.length < n → NoPayload 2 (p ++ s) .unexpectedEOF
  | fixed32 (s) : s.length < 4 → NoPayload 5 s .unexpectedEOF
  | unknown (wt s) : wt ≠ 0 → wt ≠ 1 → wt ≠ 2 → wt ≠ 5 → NoPayload wt s .wireTypeUnknown

mutual
/-- `Passes env fs b r`: for a struct with fields `fs`, the first record of `b` is fine and decoding goes on with `r`. -/
inductive Passes (env : Env) : List Field → Bytes → Bytes → Prop
  /-- a complete record of an undeclared field -/
  | unknown (fs u num wt data r) : Record u num wt data → Undeclared fs num → Passes env fs (u ++ r) r
  /-- a complete record of a declared field, with the right wire type and fine contents -/
  | known (fs u num f data r) : Record u num (keyType f.tag.wiretag) data → Declared fs num f → ¬ f.codec.isBool →
      Fine env f.codec data → Passes env fs (u ++ r) r
  /-- the same for bools, except that only the first byte of the payload is consumed -/
  | bool (fs u p num f c cs r) : Record u num (keyType f.tag.wiretag) (c :: cs) → Declared fs num f → f.codec.isBool →
      u = p ++ c :: cs → Passes env fs (u ++ r) (cs ++ r)

/-- `Readable env fs b`: the input `b` is fine for a struct with fields `fs`. -/
inductive Readable (env : Env) : List Field → Bytes → Prop
  | nil (fs) : Readable env fs []
  | cons (fs b r) : Passes env fs b r → Readable env fs r → Readable env fs b

/-- `Fine env c data`: the payload has fine contents for the codec. -/
inductive Fine (env : Env) : Codec → Bytes → Prop
  | normal (s data) : Fine env (.normal s) data
  | required (s data) : Fine env (.required s) data
  | option (s data) : Fine env (.option s) data
  | bytes (data) : Fine env .bytes data
  | ptr (z c data) : Fine env c data → Fine env (.ptr z c) data
  | slice (z c data) : Fine env c data → Fine env (.slice z c) data
  | msg (t data body) : BytesAs data body → Readable env (env t).fields body → Fine env (.msg t) data
  | map (i kc vc kd vd data body) : BytesAs data body → Readable env (entryFields i kd vd) body →
      Fine env (.map i kc vc kd vd) data
end

mutual
/-- `Rejected env fs b e`: the input `b` is rejected for a struct with fields `fs`, with error `e`. -/
inductive Rejected (env : Env) : List Field → Bytes → Err → Prop
  /-- a later record is at fault -/
  | later (fs b r e) : Passes env fs b r → Rejected env fs r e → Rejected env fs b e
  /-- the tag cannot be read: the error is not wrapped, there is no field number to report -/
  | tag (fs b e) : b ≠ [] → NoVarint b e → Rejected env fs b e
  /-- the record of an undeclared field is incomplete or has an unknown wire type -/
  | skip (fs p r num wt e) : TagBytes p num wt → Undeclared fs num → NoPayload wt r e →
      Rejected env fs (p ++ r) (.field num wt e)
  /-- the record of a declared field has the wrong wire type -/
  | wire (fs p r num wt f) : TagBytes p num wt → Declared fs num f → wt ≠ keyType f.tag.wiretag →
      Rejected env fs (p ++ r) (.field num wt (.expectedWireType (keyType f.tag.wiretag)))
  /-- the record of a declared field is incomplete -/
  | short (fs p r num f e) : TagBytes p num (keyType f.tag.wiretag) → Declared fs num f →
      NoPayload (keyType f.tag.wiretag) r e → Rejected env fs (p ++ r) (.field num (keyType f.tag.wiretag) e)
  /-- the contents of the record of a declared field are at fault -/
  | nested (fs u num f data r e) : Record u num (keyType f.tag.wiretag) data → Declared fs num f → Bad env f.codec data e →
      Rejected env fs (u ++ r) (.field num (keyType f.tag.wiretag) e)

/-- `Bad env c data e`: the payload has bad contents for the codec, with error `e`. Only nested messages and map entries
can be bad. -/
inductive Bad (env : Env) : Codec → Bytes → Err → Prop
  | ptr (z c data e) : Bad env c data e → Bad env (.ptr z c) data e
  | slice (z c data e) : Bad env c data e → Bad env (.slice z c) data e
  | msg (t data body e) : BytesAs data body → Rejected env (env t).fields body e → Bad env (.msg t) data e
  | map (i kc vc kd vd data body e) : BytesAs data body → Rejected env (entryFields i kd vd) body e →
      Bad env (.map i kc vc kd vd) data e
end

end Pb.Spec

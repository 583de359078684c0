import Verif.Model.PropNode

/-! # Specification of XML documents

A document is described by its parts, with the text it is written as (`render`) and the tree it stands for (`meaning`). Only the type
of trees is taken from the model. -/

namespace Flut.Spec.Xml

/-- Space, tab, line feed, carriage return. -/
def Blank (c : Byte) : Prop := c = 32 ∨ c = 9 ∨ c = 10 ∨ c = 13

instance (c : Byte) : Decidable (Blank c) := inferInstanceAs (Decidable (_ ∨ _))

/-- Only blanks. -/
abbrev Blanks (s : Str) : Prop := ∀ c ∈ s, Blank c

/-- The five named entities. -/
inductive Entity where
  | amp | lt | gt | apos | quot

/-- How an entity is written. -/
def Entity.render : Entity → Str
  | amp => b!"&amp;" | lt => b!"&lt;" | gt => b!"&gt;" | apos => b!"&apos;" | quot => b!"&quot;"

/-- The character of an entity. -/
def Entity.meaning : Entity → Byte
  | amp => c!"&" | lt => c!"<" | gt => c!">" | apos => c!"'" | quot => c!"\""

/-- The value of a list of digits in a base. -/
def valueOf (base : Nat) (ds : List Nat) : Nat := ds.foldl (fun a d => a * base + d) 0

/-- A digit, as written: `0` to `9`, `a` to `f`, or `A` to `F` if `upper` is set. -/
def digitByte (upper : Bool) (d : Nat) : Byte :=
  if d < 10 then UInt8.ofNat (48 + d) else if upper then UInt8.ofNat (55 + d) else UInt8.ofNat (87 + d)

/-- A piece of text: a byte as it is, a named entity, or a character given by its number in decimal or hexadecimal. Every hexadecimal
digit comes with the case of its letter. -/
inductive Item where
  | lit (c : Byte)
  | named (e : Entity)
  | dec (digits : List Nat) (c : Char)
  | hex (digits : List (Bool × Nat)) (c : Char)

/-- How a piece is written. -/
def Item.render : Item → Str
  | lit c => [c]
  | named e => e.render
  | dec ds _ => b!"&#" ++ ds.map (digitByte false) ++ b!";"
  | hex ds _ => b!"&#x" ++ ds.map (fun d => digitByte d.1 d.2) ++ b!";"

/-- The bytes a piece stands for; characters given by number are encoded in UTF-8. -/
def Item.meaning : Item → Str
  | lit c => [c]
  | named e => [e.meaning]
  | dec _ c => String.utf8EncodeChar c
  | hex _ c => String.utf8EncodeChar c

/-- A piece that may occur in a text that ends at the character `stop`. The number of a character is taken modulo `2^64`. -/
def Item.Valid (stop : Byte) : Item → Prop
  | lit c => c ≠ 0 ∧ c ≠ 38 ∧ c ≠ stop
  | named _ => True
  | dec ds c => (∀ d ∈ ds, d < 10) ∧ valueOf 10 ds % 2 ^ 64 = c.toNat ∧ c.toNat ≠ 0
  | hex ds c => (∀ d ∈ ds, d.2 < 16) ∧ valueOf 16 (ds.map Prod.snd) % 2 ^ 64 = c.toNat ∧ c.toNat ≠ 0

/-- A text, as written. -/
def renderText (t : List Item) : Str := t.flatMap Item.render

/-- A text, as bytes. -/
def textMeaning (t : List Item) : Str := t.flatMap Item.meaning

/-- A text that is only blanks, as written. -/
def IsBlankText (t : List Item) : Prop := ∀ c ∈ renderText t, Blank c

instance (t : List Item) : Decidable (IsBlankText t) := inferInstanceAs (Decidable (∀ c ∈ renderText t, Blank c))

/-- An attribute with the blanks before it, around the equals sign, and its kind of quote. -/
structure Attr where
  before : Str
  name : Str
  beforeEq : Str
  afterEq : Str
  double : Bool
  value : List Item

/-- The quote of an attribute. -/
def Attr.quote (a : Attr) : Byte := if a.double then c!"\"" else c!"'"

/-- An attribute as written. -/
def Attr.render (a : Attr) : Str :=
  a.before ++ a.name ++ a.beforeEq ++ b!"=" ++ a.afterEq ++ [a.quote] ++ renderText a.value ++ [a.quote]

/-- A byte that may occur in the name of an attribute. -/
def AttrByte (c : Byte) : Prop :=
  c ≠ 0 ∧ ¬ Blank c ∧ c ≠ c!"!" ∧ c ≠ c!"/" ∧ c ≠ c!"<" ∧ c ≠ c!"=" ∧ c ≠ c!">" ∧ c ≠ c!"?"

/-- A valid attribute: there are blanks before it, and its text does not contain its quote. -/
def Attr.Valid (a : Attr) : Prop :=
  a.before ≠ [] ∧ Blanks a.before ∧ a.name ≠ [] ∧ (∀ c ∈ a.name, AttrByte c) ∧ Blanks a.beforeEq ∧ Blanks a.afterEq ∧
  ∀ i ∈ a.value, i.Valid a.quote

/-- A byte that may occur in the name of an element. -/
def NameByte (c : Byte) : Prop := c ≠ 0 ∧ ¬ Blank c ∧ c ≠ c!"/" ∧ c ≠ c!">" ∧ c ≠ c!"?"

instance (c : Byte) : Decidable (NameByte c) := inferInstanceAs (Decidable (_ ∧ _))

/-- The name of an element. -/
def Name (s : Str) : Prop := s ≠ [] ∧ (∀ c ∈ s, NameByte c) ∧ s.head? ≠ some c!"!"

instance (s : Str) : Decidable (Name s) := inferInstanceAs (Decidable (_ ∧ _ ∧ _))

/-- A text without zeros after which the mark occurs for the first time. -/
def EndsAt (mark s : Str) : Prop := (∀ c ∈ s, c ≠ 0) ∧ ∀ a b, s ++ mark = a ++ mark ++ b → b = []

mutual
/-- Markup: an element with or without a body, or something that carries no data. -/
inductive Markup where
  | empty (name : Str) (attrs : List Attr) (space : Str)
  | elem (name : Str) (attrs : List Attr) (space : Str) (body : Body) (closeSpace : Str)
  | comment (s : Str)
  | instruction (s : Str)
  | doctype (s : Str)
/-- The body of an element: text and markup in turn, starting and ending with text. -/
inductive Body where
  | last (t : List Item)
  | cons (t : List Item) (m : Markup) (rest : Body)
end

mutual
/-- Markup as written. -/
def Markup.render : Markup → Str
  | .empty name attrs sp => b!"<" ++ name ++ attrs.flatMap Attr.render ++ sp ++ b!"/>"
  | .elem name attrs sp body csp =>
    b!"<" ++ name ++ attrs.flatMap Attr.render ++ sp ++ b!">" ++ body.render ++ b!"</" ++ name ++ csp ++ b!">"
  | .comment s => b!"<!--" ++ s ++ b!"-->"
  | .instruction s => b!"<?" ++ s ++ b!"?>"
  | .doctype s => b!"<!DOCTYPE " ++ s ++ b!">"
/-- A body as written. -/
def Body.render : Body → Str
  | .last t => renderText t
  | .cons t m r => renderText t ++ m.render ++ r.render
end

/-- The text of a document type: anything but `>`; in brackets, which may be nested, `>` is allowed too. -/
inductive DoctypeText : Bool → Str → Prop
  | nil {inside} : DoctypeText inside []
  | char {inside c s} : c ≠ 0 → c ≠ c!"[" → c ≠ (if inside then c!"]" else c!">") → DoctypeText inside s →
      DoctypeText inside (c :: s)
  | brackets {inside s t} : DoctypeText true s → DoctypeText inside t → DoctypeText inside (b!"[" ++ s ++ b!"]" ++ t)

mutual
/-- Valid markup. -/
inductive Markup.Valid : Markup → Prop
  | empty {name attrs sp} : Name name → (∀ a ∈ attrs, Attr.Valid a) → Blanks sp → Markup.Valid (.empty name attrs sp)
  | elem {name attrs sp body csp} : Name name → (∀ a ∈ attrs, Attr.Valid a) → Blanks sp → Blanks csp → Body.Valid body →
      Markup.Valid (.elem name attrs sp body csp)
  | comment {s} : EndsAt b!"-->" s → Markup.Valid (.comment s)
  | instruction {s} : EndsAt b!"?>" s → Markup.Valid (.instruction s)
  | doctype {s} : DoctypeText false s → Markup.Valid (.doctype s)
/-- Valid bodies. -/
inductive Body.Valid : Body → Prop
  | last {t} : (∀ i ∈ t, Item.Valid c!"<" i) → Body.Valid (.last t)
  | cons {t m r} : (∀ i ∈ t, Item.Valid c!"<" i) → Markup.Valid m → Body.Valid r → Body.Valid (.cons t m r)
end

/-- The value of a body: its first text that is more than blanks. -/
def Body.value : Body → Str
  | .last t => if IsBlankText t then [] else textMeaning t
  | .cons t _ r => if IsBlankText t then r.value else textMeaning t

/-- The attributes as children with a value. -/
def attrNodes (attrs : List Attr) : List (Str × PN) := attrs.map fun a => (a.name, .mk false (textMeaning a.value) [])

mutual
/-- The child that markup stands for: name and tree. Attributes come before child elements. -/
def Markup.meaning : Markup → List (Str × PN)
  | .empty name attrs _ => [(name, .mk false [] (attrNodes attrs))]
  | .elem name attrs _ body _ => [(name, .mk false body.value (attrNodes attrs ++ body.kids))]
  | .comment _ => []
  | .instruction _ => []
  | .doctype _ => []
/-- The children of a body. -/
def Body.kids : Body → List (Str × PN)
  | .last _ => []
  | .cons _ m r => m.meaning ++ r.kids
end

/-- A document: markup, with blanks after each. -/
abbrev Doc := List (Markup × Str)

/-- A document as written, after some blanks. -/
def renderDoc (space : Str) (d : Doc) : Str := space ++ d.flatMap fun ms => ms.1.render ++ ms.2

/-- A valid document. -/
def Doc.Valid (d : Doc) : Prop := ∀ ms ∈ d, ms.1.Valid ∧ Blanks ms.2

/-- The mark that says a file is in UTF-8. -/
def byteOrderMark : Str := [0xEF, 0xBB, 0xBF]

/-- A tree that an XML file can hold: each node has either a value or children, values contain no zeros and are not only blanks,
and keys are names of elements. -/
inductive Storable : PN → Prop
  | leaf {a v} : (∀ c ∈ v, c ≠ 0) → (v ≠ [] → ∃ c ∈ v, ¬ Blank c) → Storable (.mk a v [])
  | group {a cs} : (∀ kn ∈ cs, Name kn.1) → (∀ kn ∈ cs, Storable kn.2) → Storable (.mk a [] cs)

end Flut.Spec.Xml

/-
What the example plugins for raw directives make of a ledger.
-/
import Verif.Spec.Written
import Verif.Spec.Valid
import Verif.Clj.TestPlugins

namespace Limabean
namespace Spec

open Clj

/-- The directive with one more tag, unless it is there. -/
def tagged (tag : Str) (d : Raw.Directive) : Raw.Directive :=
  { d with tags := some (if tag ∈ d.tags.getD [] then d.tags.getD [] else d.tags.getD [] ++ [tag]) }

/-- The name of the kind of a directive. -/
def sortName : Raw.Variant → Str
  | .transaction _ => str% "txn"
  | .price _ => str% "price"
  | .balance _ => str% "balance"
  | .opn _ => str% "open"
  | .close _ => str% "close"
  | .commodity _ => str% "commodity"
  | .pad _ => str% "pad"
  | .document _ => str% "document"
  | .note _ => str% "note"
  | .event _ => str% "event"
  | .query _ => str% "query"
  | .custom _ => str% "custom"

/-- The directive with these metadata, which win over those it has. -/
def withMetadata (m : List (Str × MetaValue)) (d : Raw.Directive) : Raw.Directive :=
  { d with metadata := some (m.foldr (fun p l => AMap.set l p.1 p.2) (d.metadata.getD [])) }

/-- A copy of the directive, marked as such, which has no place in a file. -/
def copyOf (d : Raw.Directive) : Raw.Directive := withMetadata [(str% "dup", .null)]
  { d with
    span := none
    variant := match d.variant with
      | .transaction t => .transaction { t with postings := t.postings.map fun p => { p with span := none } }
      | v => v }

/-- Metadata which can be set: names and values can be sent, integers have at most 64 bits, and the names are none which are lost (C44). -/
def Settable (m : List (Str × MetaValue)) : Prop :=
  ∀ p ∈ m, PlainName p.1 ∧ p.1 ≠ str% "dct" ∧ p.1 ≠ str% "booking" ∧ MetaOk p.2 ∧ ∀ n ∈ metaNumbers p.2, FitsLong n

/-- The example plugins for raw directives, with their configurations. -/
inductive Example
  | identity
  | setNarration (narration : Str)
  | autoClose (accs : List Str)
  /-- `{:matching {:dct kind} :tag tag}` -/
  | tagMatching (kind tag : Str)
  | setMetadata (config : AMap Str (List (Str × MetaValue)))
  | duplicateTxns

/-- The plugin. -/
def Example.plugin : Example → Plugin
  | .identity => identityPlugin
  | .setNarration s => narrationPlugin s
  | .autoClose accs => closePlugin accs
  | .tagMatching kind tag => tagPlugin (fun d => isKw (d.get (str% "dct")) kind) tag
  | .setMetadata config => metadataPlugin (config.map fun q => (q.1, q.2.map fun p => (p.1, ofMeta p.2)))
  | .duplicateTxns => duplicatePlugin

/-- What the plugin makes of a directive. -/
def Example.makes : Example → Raw.Directive → List Raw.Directive
  | .identity, d => [d]
  | .setNarration s, d => [withNarration s d]
  | .autoClose accs, d => match d.variant with
    | .opn o => if o.acc ∈ accs then [d, closing d.date o.acc] else [d]
    | _ => [d]
  | .tagMatching kind tag, d => [if sortName d.variant = kind then tagged tag d else d]
  | .setMetadata config, d => match config.get (sortName d.variant) with
    | some m => [withMetadata m d]
    | none => [d]
  | .duplicateTxns, d => match d.variant with
    | .transaction _ => [copyOf d, d]
    | _ => [d]

/-- What the plugin is configured with can be sent. -/
def Example.Ok : Example → Prop
  | .tagMatching _ tag => PlainName tag
  | .setMetadata config => ∀ kind m, config.get kind = some m → Settable m
  | _ => True

/-- What the plugins make of a ledger, one after the other. -/
def madeBy (es : List Example) (ds : List Raw.Directive) : List Raw.Directive := es.foldl (fun ds e => ds.flatMap e.makes) ds

end Spec
end Limabean

import Verif.Session

/-!
# Exporting a map according to a yaml-document

Model of the parts of `src/bin/osmgraphing/mod.rs` that lead from a document to a written map.
-/

namespace Verif.Session

open Text Gen
open Yml (Yaml)

section
variable {K : Type} [LinearOrder K] [Zero K] [Add K] (w : World K)

/-- `src/bin/osmgraphing/mod.rs:65-88`: the graph of a document. -/
def load (doc : Yaml) : Res Err Net :=
  match Yml.parsing w.numbers w.text doc with
  | none => .err .config
  | some (mapFile, cfg) => loadMap w mapFile cfg

/-- `src/bin/osmgraphing/mod.rs:92-108`: what is written with `--writing-graph`. `none` is an error in the document. -/
def graphFile (doc : Yaml) : Option Tool.Output :=
  (Yml.graphOut w.numbers doc).map fun o =>
    Tool.graphOutput w.codec o.mapFile
      { nodes := o.nodes, edges := o.edges.ids, shortcuts := o.edges.shortcuts, denormalize := o.edges.denormalize }

/-- The tool works with this document. -/
structure WorksWith (doc : Yaml) (t : Tool.World) : Prop where
  parse : ∀ d, t.parse d = Fmi.mapErr (fun _ => ⟨⟩) (load { w with text := d } doc)
  graph : t.graph = graphFile w doc

end

end Verif.Session

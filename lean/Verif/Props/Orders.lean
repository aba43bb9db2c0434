import Verif.Proof.Traces
import Verif.Props.Goroutines
import Verif.Props.Located
/-! # C174, C178: the orders in which the goroutines of discovery write -/
namespace Telefacts
open Telefacts.Hydrate Telefacts.Decode Telefacts.Threads Telefacts.Spec

/-- C174 (3): the orders in which the goroutines can write, one step of one of them at a time, are those of `Disc.Runs`, in which the model of
the server discovers folders. -/
theorem C174_discover_orders {L D : Type} (env : Disc.FolderEnv L D) (fuel : Nat) (inst : Disc.InstanceFile) (ws : List (Disc.Write L))
    (h : Disc.schemaRef env fuel inst = some ws) (t : List (Disc.Write L)) :
    (∃ c, Threads.Runs (schemaRefThreads env fuel inst) t c ∧ Finished c) ↔ Disc.Runs env fuel inst t := by
  rw [← traces_schemaRef h, ← runs_traces (single_schemaRef env fuel inst)]
  exact ⟨fun ⟨c, hr, hc⟩ => by rw [show c = .run .done from hc] at hr; exact hr, fun hr => ⟨_, hr, rfl⟩⟩

/-- **C178.** So: after an execution of the goroutines a namespace has a location that a reference gives it from whose file it is not given
another, and it may have each of these. -/
theorem C178_executions {L D : Type} (env : Disc.FolderEnv L D) (fuel : Nat) (inst : Disc.InstanceFile) (ws : List (Disc.Write L))
    (h : Disc.schemaRef env fuel inst = some ws) (fo : Disc.Folder L D) (hfo : fo.namespaces = []) (n l : String) :
    (∃ t c, Threads.Runs (schemaRefThreads env fuel inst) t c ∧ Finished c ∧ mapGet (t.foldl Disc.applyWrite fo).namespaces n = some l) ↔
      Disc.Finally env inst n l := by
  rw [← Disc.runs_last h]
  constructor
  · rintro ⟨t, c, hr, hc, hm⟩
    exact ⟨t, (C174_discover_orders env fuel inst ws h t).1 ⟨c, hr, hc⟩, (Disc.namespaces_last n l t fo hfo).1 hm⟩
  · rintro ⟨t, ht, hl⟩
    obtain ⟨c, hr, hc⟩ := (C174_discover_orders env fuel inst ws h t).2 ht
    exact ⟨t, c, hr, hc, (Disc.namespaces_last n l t fo hfo).2 hl⟩

/-- The hypotheses are met by a file that includes another of its namespace. -/
example : ∃ ws, Disc.schemaRef splitDisk.env 3 splitInst = some ws ∧ ws.length = 4 := by
  have h : (Disc.schemaRef splitDisk.env 3 splitInst).map List.length = some 4 := by decide +kernel
  obtain ⟨ws, h1, h2⟩ := Option.map_eq_some_iff.1 h
  exact ⟨ws, h1, h2⟩

end Telefacts

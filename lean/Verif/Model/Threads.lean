/-!
# Goroutines, mutexes and wait groups

What goroutines do to shared memory, one access at a time. The functions of /repo use `go func` with
a `sync.WaitGroup` (or one channel per goroutine) for fork and join, and a `sync.Mutex` around groups of
accesses. Interleavings are sequentially consistent; an access of a map is one action.

The programs themselves are in `Verif/Model/Goroutines.lean`.
-/
namespace Telefacts.Threads

/-- What remains to be done by a goroutine, as far as shared memory is concerned. `A`: accesses, `M`:
mutexes. `act`: an access outside of critical sections. `crit`: `Lock`, some accesses, `Unlock`.
`par p q k`: start `p` and `q`, wait for both, go on with `k`. -/
inductive Prog (A M : Type) where
  | done
  | act (a : A) (k : Prog A M)
  | crit (m : M) (as : List A) (k : Prog A M)
  | par (p q k : Prog A M)

/-- A loop that starts a goroutine for each element, and `wg.Wait()`. -/
def Prog.all {A M : Type} : List (Prog A M) → Prog A M
  | [] => .done
  | p :: ps => .par p (.all ps) .done

/-- Accesses one after the other. -/
def Prog.acts {A M : Type} : List A → Prog A M → Prog A M
  | [], k => k
  | a :: as, k => .act a (.acts as k)

/-- Goroutines at work: one about to do `p`; one inside of a critical section; one that waits for the
two it has started. -/
inductive Conf (A M : Type) where
  | run (p : Prog A M)
  | inside (m : M) (as : List A) (k : Prog A M)
  | wait (l r : Conf A M) (k : Prog A M)

/-- The mutexes held. -/
def Conf.holds {A M : Type} : Conf A M → M → Prop
  | .run _, _ => False
  | .inside m _ _, n => n = m
  | .wait l r _, n => l.holds n ∨ r.holds n

/-- One step of one goroutine, with the accesses it does. `H`: the mutexes held by the others. -/
inductive Step {A M : Type} : (M → Prop) → Conf A M → List A → Conf A M → Prop
  | act (H a k) : Step H (.run (.act a k)) [a] (.run k)
  | lock (H m as k) : ¬ H m → Step H (.run (.crit m as k)) [] (.inside m as k)
  | body (H m a as k) : Step H (.inside m (a :: as) k) [a] (.inside m as k)
  | unlock (H m k) : Step H (.inside m [] k) [] (.run k)
  | fork (H p q k) : Step H (.run (.par p q k)) [] (.wait (.run p) (.run q) k)
  | left (H l r k t l') : Step (fun n => H n ∨ r.holds n) l t l' → Step H (.wait l r k) t (.wait l' r k)
  | right (H l r k t r') : Step (fun n => H n ∨ l.holds n) r t r' → Step H (.wait l r k) t (.wait l r' k)
  | join (H k) : Step H (.wait (.run .done) (.run .done) k) [] (.run k)

/-- Steps one after the other, with all accesses in their order. -/
inductive Steps {A M : Type} (H : M → Prop) : Conf A M → List A → Conf A M → Prop
  | refl (c) : Steps H c [] c
  | step {c t d u e} : Step H c t d → Steps H d u e → Steps H c (t ++ u) e

/-- Executions of a program on its own. -/
def Runs {A M : Type} (p : Prog A M) (t : List A) (c : Conf A M) : Prop := Steps (fun _ => False) (.run p) t c

end Telefacts.Threads

import Verif.SpecAlike
import Verif.SpecSame

/-!
# Histories during which hash tables rearrange themselves

The model keeps the entries of a hash table in the order of their insertion. A real hash table has some other order, which
it may change whenever it grows. Here the tree may be exchanged before and after every operation for any other that is
related by `r` — for the relations of `AlikeTree`, any other with the entries of its hash tables in another order.
-/

set_option autoImplicit false

namespace Veb

/-- What a history may lead to, from `t`, if the tree is rearranged before and after every operation: a tree and the
outputs, or a panic. -/
inductive Shuffled {T K V : Type} [VebTree T K V] (r : T → T → Prop) :
    Option T → List (Op K V) → R (Option T × List (Out K V)) → Prop
  | nil {t u : Option T} (h : Option.Rel r t u) : Shuffled r t [] (.ok (u, []))
  | step {t u v w : Option T} {op : Op K V} {o : Out K V} {ops : List (Op K V)} {os : List (Out K V)}
      (h : Option.Rel r t u) (hs : Exec.step u op = .ok (v, o)) (hr : Shuffled r v ops (.ok (w, os))) :
      Shuffled r t (op :: ops) (.ok (w, o :: os))
  | later {t u v : Option T} {op : Op K V} {o : Out K V} {ops : List (Op K V)} {e : Panic}
      (h : Option.Rel r t u) (hs : Exec.step u op = .ok (v, o)) (hr : Shuffled r v ops (.error e)) :
      Shuffled r t (op :: ops) (.error e)
  | panic {t u : Option T} {op : Op K V} {ops : List (Op K V)} {e : Panic}
      (h : Option.Rel r t u) (hs : Exec.step u op = .error e) : Shuffled r t (op :: ops) (.error e)

/-- What the calls `ss` on an iterator over an optional tree return. -/
def itemsOf {T K V : Type} [LinearOrder K] [VebTree T K V] (t : Option T) (ss : List Side) : R (List (Option (K × V))) :=
  match t with
  | none => pure []
  | some t => do pure (← (Iter.new (K := K) t).calls ss).2

end Veb

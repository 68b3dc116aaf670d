import Verif.Spec.Resources
/-
Specification of tries that go on after the system has refused something (C97).
-/

namespace Columbus.Res

/-- How many of the calls of `expand` so far were refused their `munmap`; the first asks for none. -/
def denied (o : Obj) : Nat := (List.range o.calls).countP fun k => decide (0 < k) && !(o.sys.expand k).unmap

/-- Insertions into one trie, one after the other, by a program that catches `runtime_error` and goes on. For each insertion,
whether it came back. -/
def tryAll [Build] : Spec.IndexHistory → Obj → Obj × M (List Bool)
  | [], o => (o, .ok [])
  | p :: r, o => match insertWord p.1 p.2 o with
    | (o', .ok _) => match tryAll r o' with
      | (o'', .ok bs) => (o'', .ok (true :: bs))
      | (o'', .error e) => (o'', .error e)
    | (o', .error .runtimeError) => match tryAll r o' with
      | (o'', .ok bs) => (o'', .ok (false :: bs))
      | (o'', .error e) => (o'', .error e)
    | (o', .error e) => (o', .error e)

end Columbus.Res

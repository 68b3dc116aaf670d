import Verif.Model.PyModule
import Verif.Props.Python
import Verif.Props.Suite
/-
The tests of test/pythontest.py run on the model of the Python module. As with Props/Suite.lean they prove none of the
properties. A test is a list of calls with what they must return; objects are numbered in the order of their making.
`TestMatchResults` is not derived from `TestCase`, so Python does not run it. All tests pass but `test_values`: the module
refuses letters as arguments (C93).
-/

namespace Columbus.Suite.PyTests
open Columbus Spec Py

@[reducible] scoped instance growth : Columbus.Python.Growth := Props.doubling

/-- Make the calls from a state and compare what they return. -/
def runs (w : World) : List (Py.Call × (Py.Ret → Bool)) → Bool
  | [] => true
  | (c, p) :: rest =>
    match c.run w with
    | .error _ => false
    | .ok (w, r) => p r && runs w rest

def passes (t : List (Py.Call × (Py.Ret → Bool))) : Bool := runs ⟨[], []⟩ t

/-- The call returns this. -/
def is (r : Py.Ret) : Py.Ret → Bool := fun x => x == r

/-- abcåäö -/
def swedish : Bytes := ascii "abc" ++ [0xc3, 0xa5, 0xc3, 0xa4, 0xc3, 0xb6]

/-! ### TestWord -/

#guard passes [(.wordNew (ascii "hello"), is (.object 0))]

#guard passes [(.wordNew (ascii "hello"), is (.object 0)), (.wordString (.obj 0), is (.text (ascii "hello"))),
  (.wordNew swedish, is (.object 1)), (.wordString (.obj 1), is (.text swedish))]

#guard passes [(.wordNew (ascii "two words"), is .valueError)]

#guard passes [(.wordNew (ascii "hello"), is (.object 0)), (.wordLen (.obj 0), is (.number 5)),
  (.wordNew swedish, is (.object 1)), (.wordLen (.obj 1), is (.number 6))]

/-! ### TestWordList -/

#guard passes [(.listNew, is (.object 0)), (.listLen (.obj 0), is (.number 0)), (.wordNew (ascii "abc"), is (.object 1)),
  (.wordNew (ascii "defg"), is (.object 2)), (.listAdd (.obj 0) (.obj 1), is .none), (.listLen (.obj 0), is (.number 1)),
  (.listAdd (.obj 0) (.obj 2), is .none), (.listLen (.obj 0), is (.number 2)), (.listAdd (.obj 0) (.obj 1), is .none),
  (.listLen (.obj 0), is (.number 3))]

#guard passes [(.split (ascii "this is  my text"), is (.object 0)), (.listLen (.obj 0), is (.number 4))]

#guard passes [(.split (ascii "this is  my text"), is (.object 0)),
  (.listGet (.obj 0) 0, is (.item 0)), (.wordString (.item 0), is (.text (ascii "this"))),
  (.listGet (.obj 0) 0, is (.item 1)), (.wordString (.item 1), fun r => r != .text (ascii "is")),
  (.listGet (.obj 0) 1, is (.item 2)), (.wordString (.item 2), is (.text (ascii "is"))),
  (.listGet (.obj 0) 2, is (.item 3)), (.wordString (.item 3), is (.text (ascii "my"))),
  (.listGet (.obj 0) 3, is (.item 4)), (.wordString (.item 4), is (.text (ascii "text")))]

/-! ### TestDocument -/

#guard passes [(.documentNew 1, is (.object 0))]

#guard passes [(.wordNew (ascii "fieldname"), is (.object 0)), (.documentNew 435, is (.object 1)),
  (.getId 1, is (.number 435)), (.fieldCount 1, is (.number 0)),
  (.addText 1 (.obj 0) (ascii "ye olde butcherede englishe"), is .none), (.fieldCount 1, is (.number 1)),
  (.getText 1 (.obj 0), is (.list (.text 1 [0x66, 0x69, 0x65, 0x6c, 0x64, 0x6e, 0x61, 0x6d, 0x65]))),
  (.listLen (.text 1 [0x66, 0x69, 0x65, 0x6c, 0x64, 0x6e, 0x61, 0x6d, 0x65]), is (.number 4))]

/-! ### TestCorpus -/

#guard passes [(.corpusNew, is (.object 0)), (.documentNew 55, is (.object 1)), (.corpusSize 0, is (.number 0)),
  (.corpusAdd 0 1, is .none), (.corpusSize 0, is (.number 1))]

/-! ### TestMatcher -/

#guard passes [(.corpusNew, is (.object 0)), (.matcherNew (fun _ => true), is (.object 1)),
  (.wordNew (ascii "title"), is (.object 2)),
  (.documentNew 0, is (.object 3)), (.addText 3 (.obj 2) (ascii "abc def"), is .none),
  (.documentNew 10, is (.object 4)), (.addText 4 (.obj 2) (ascii "abe test"), is .none),
  (.documentNew 1000, is (.object 5)), (.addText 5 (.obj 2) (ascii "faraway donotmatchme"), is .none),
  (.corpusAdd 0 3, is .none), (.corpusAdd 0 4, is .none), (.corpusAdd 0 5, is .none), (.index 1 0, is .none),
  (.search 1 (ascii "abe"), is (.object 6)), (.resultsLen 6, is (.number 2)),
  (.resultsId 6 0, is (.number 10)), (.resultsId 6 1, is (.number 0))]

#guard passes [(.matcherNew (fun _ => true), is (.object 0)), (.getErrorvalues 0, is (.part (.ofMatcher 0))),
  (.addStandardErrors (.ofMatcher 0) (fun greek => some [if greek then [0xce, 0xb1, 0xce, 0xac] else [0x61, 0xc3, 0xa5]]), is .none)]

#guard passes [(.matcherNew (fun _ => true), is (.object 0)), (.getIndexweights 0, is (.part (.ofMatcher 0))),
  (.wordNew (ascii "abc"), is (.object 1)), (.getWeight (.ofMatcher 0) (.obj 1), is (.real 1))]

/-! ### TestErrorValues -/

#guard passes [(.errorsNew, is (.object 0))]

/-- `test_values`, as it is written: the first call with letters raises an exception. -/
def testValues : List (Py.Call × (Py.Ret → Bool)) := [(.errorsNew, is (.object 0)), (.getDefaultError, is (.int 100)),
  (.getSubstituteError (.obj 0) 16 17, is (.int 100)), (.setError (.obj 0) 16 17 1, is .none),
  (.getSubstituteError (.obj 0) 16 17, is (.int 1)), (.getSubstituteError (.obj 0) 17 16, is (.int 1)),
  (.clearErrors (.obj 0), is .none), (.getSubstituteError (.obj 0) 16 17, is (.int 100))]

#guard !passes testValues
#guard passes [(.errorsNew, is (.object 0)), (.getSubstituteError (.obj 0) 16 17, is .argumentError)]

/-! ### TestIndexWeights -/

#guard passes [(.weightsNew, is (.object 0)), (.wordNew (ascii "abc"), is (.object 1)),
  (.getWeight (.obj 0) (.obj 1), is (.real 1)), (.setWeight (.obj 0) (.obj 1) 2, is .none),
  (.getWeight (.obj 0) (.obj 1), is (.real 2))]

end Columbus.Suite.PyTests

import Verif.Spec.Tree
/-!
A concrete, non-trivial schema and element used to show that the hypotheses of the tree theorems can be met:
a Dict `o` with a String `a`, a List `l` of Dicts with an Integer `n`, an Array `t` of Strings, and a SparseDict `z`
with an optional String `q`.
-/
namespace Flatland.TreeExample
open Flatland

/-- text `s` as held by a String -/
def str (s : String) : ScalarState := ⟨.str s.toList, s.toList, some (.str s.toList)⟩
/-- a small integer `n` as held by an Integer -/
def int (n : Int) (s : String) : ScalarState := ⟨.int n, s.toList, some (.int n)⟩

/-- `Dict.named('o').of(String.named('a'), List.named('l').of(Dict.of(Integer.named('n'))), Array.named('t').of(String),
SparseDict.named('z').of(String.named('q')))` -/
def schema : Schema :=
  letI := Runtime.ascii
  .dict ⟨some "o".toList, false, some .none⟩ .full .subset
    [.scalar ⟨some "a".toList, false, some .none⟩ (stringType true),
     .list ⟨some "l".toList, false, some .none⟩ true 1024
       (.dict ⟨none, false, some .none⟩ .full .subset
         [.scalar ⟨some "n".toList, false, some .none⟩ (integerType true 0)]),
     .array ⟨some "t".toList, false, some .none⟩ true (.scalar ⟨none, false, some .none⟩ (stringType true)),
     .dict ⟨some "z".toList, false, some .none⟩ .sparse .subset
       [.scalar ⟨some "q".toList, true, some .none⟩ (stringType true)]]

/-- an instance of `schema` -/
def elem : Elem :=
  .dict (some "o".toList)
    [.scalar (some "a".toList) (str "x"),
     .list (some "l".toList)
       [.dict none [.scalar (some "n".toList) (int 7 "7")],
        .dict none [.scalar (some "n".toList) (int 8 "8")]],
     .array (some "t".toList) [.scalar none (str "u"), .scalar none (str "v")],
     .dict (some "z".toList) [.absent]]

/-- the separator `_` -/
def sep : PStr := "_".toList

end Flatland.TreeExample

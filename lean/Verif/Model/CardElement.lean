import Verif.Model.Numbers
/-! Validation of a card number element: flatland/ext/creditcard.py:18-77 with flatland/schema/base.py:890-929.

Simplifications.  The element's state is None and no translation function is in reach, so that a message is its template with the label put in.
The value is one that `set` can leave (None, a number or a bool). -/
namespace Flatland

/-- the four validators `CreditCardNumber.__init__` makes [ext/creditcard.py:22-27] -/
inductive CardCheck | present | converted | luhn | acceptedType
  deriving DecidableEq, Repr

/-- `validators = [self.Present(), self.Converted(), self.Luhn10(), self.AcceptedType()]` [ext/creditcard.py:22-27] -/
def cardDefaults : List CardCheck := [.present, .converted, .luhn, .acceptedType]

/-- the validators an element has after `Element.__init__`: a keyword makes an attribute of the element, which hides that of the class [schema/base.py:130-150] -/
def elementValidators {V : Type} (ofClass : List V) (keyword : Option (List V)) : List V := keyword.getD ofClass

/-- `kw.setdefault('validators', validators)`, then `Long.__init__` [ext/creditcard.py:21-30] -/
def cardValidators {V : Type} (defaults : List V) (ofClass : List V) (keyword : Option (List V)) : List V :=
  elementValidators ofClass (some (keyword.getD defaults))

/-- the text of a card type, the only member of its tuple [ext/creditcard.py:13-16] -/
def CardType.label : CardType → PStr
  | .visa => "Visa".toList
  | .masterCard => "MasterCard".toList
  | .amex => "American Express".toList
  | .discover => "Discover".toList

/-- `accepted = (VISA, MASTERCARD, AMEX)` [ext/creditcard.py:19] -/
def cardAccepted : List CardType := [.visa, .masterCard, .amex]

/-- `_formatter(element, state)`: `accepted[0]` of an empty tuple raises IndexError [ext/creditcard.py:56-66] -/
def acceptedFormatter (accepted : List CardType) : Except PyErr PStr :=
  let labels := accepted.map CardType.label
  if accepted.length > 2 then match accepted.getLast? with
    | some last => .ok ("We accept ".toList ++ (pyJoin ", ".toList labels ++ ", and ".toList ++ last.label))
    | .none => .error .index
  else if accepted.length = 2 then .ok ("We accept ".toList ++ pyJoin " and ".toList labels)
  else match accepted.head? with
    | some first => .ok ("We accept ".toList ++ first.label)
    | .none => .error .index

/-- Python's call of a function with `params` parameters and no defaults -/
def callPositional {A : Type} (params args : Nat) (body : Except PyErr A) : Except PyErr A := if args = params then body else .error .type

/-- `getattr(self, 'not_accepted')`: the class attribute is the function `_formatter` with two parameters, so that the attribute of the validator is a
bound method, and `message(element, state)` calls the function with the validator as well, three arguments [ext/creditcard.py:55-68, validation/base.py:108, 228-229] -/
def notAcceptedAttr (accepted : List CardType) : MsgAttr :=
  .callable (callPositional 2 (1 + 2) ((acceptedFormatter accepted).map .single))

/-- the message attributes of the four validators [validation/scalars.py:20, 130, validation/number.py:77, ext/creditcard.py:68] -/
def cardMessage (accepted : List CardType) (c : CardCheck) (key : PStr) : Except PyErr MsgAttr :=
  match c with
  | .present => if key = "missing".toList then .ok (.fixed (.single "%(label)s may not be blank.".toList)) else .error .attribute
  | .converted => if key = "incorrect".toList then .ok (.fixed (.single "%(label)s is not correct.".toList)) else .error .attribute
  | .luhn => if key = "invalid".toList then .ok (.fixed (.single "The %(label)s was not entered correctly.".toList)) else .error .attribute
  | .acceptedType => if key = "not_accepted".toList then .ok (notAcceptedAttr accepted) else .error .attribute

/-- what messages are expanded with: no extra arguments, the validator (which has no `label`), the element (which has) [validation/base.py:231-236, schema/base.py:355-362] -/
def cardMsgEnv (label : PStr) : MsgEnv where
  targets := [⟨some fun _ => .error .key, fun _ => .error .attribute⟩, ⟨.none, fun _ => .error .attribute⟩,
    ⟨.none, fun k => if k = "label".toList then .ok (.str label) else .error .attribute⟩]
  ugettext := .ok .none
  ungettext := .ok .none

/-- `AcceptedType.validate`; the text of a bool is no card number, and None is an AssertionError [ext/creditcard.py:70-77, 84-87] -/
def acceptedTypeValidate [Runtime] (accepted : List CardType) (value : PyVal) : Except PyErr (Option PStr) :=
  match value with
  | .int n => .ok (if acceptedType accepted n then .none else some "not_accepted".toList)
  | .bool _ => .ok (some "not_accepted".toList)
  | _ => .error .assertion

/-- one of the four validators on the element's value and text; the outer `none`: `luhn10` is still running [ext/creditcard.py:51-77, validation/scalars.py:22-25, 132-136, validation/number.py:79-87] -/
def cardStep [Runtime] (fuel : Nat) (accepted : List CardType) (st : ScalarState) : CardCheck → Option (Except PyErr (Option PStr))
  | .present => some (runValidator ⟨st.value, st.u, false⟩ .present)
  | .converted => some (runValidator ⟨st.value, st.u, false⟩ .converted)
  | .luhn => luhnValidate fuel st.value
  | .acceptedType => some (acceptedTypeValidate accepted st.value)

/-- the loop over the validators, on the element's errors [schema/base.py:918-929] -/
def cardLoop [Runtime] (fuel : Nat) (label : PStr) (accepted : List CardType) (st : ScalarState) (errors : List PStr) :
    List CardCheck → Option (List PStr × Except PyErr Bool)
  | [] => some (errors, .ok true)
  | c :: cs => match cardStep fuel accepted st c with
    | .none => .none
    | some r => match runCheck ⟨cardMsgEnv label, cardMessage accepted c⟩ errors r with
      | (errors', .error er) => some (errors', .error er)
      | (errors', .ok false) => some (errors', .ok false)
      | (errors', .ok true) => cardLoop fuel label accepted st errors' cs

/-- `CreditCardNumber.validate()`: the element's errors afterwards and the result; `none`: still running [schema/base.py:764-766, 910-929] -/
def cardValidate [Runtime] (fuel : Nat) (label : PStr) (accepted : List CardType) (optional : Bool) (st : ScalarState) (errors : List PStr)
    (validators : List CardCheck) : Option (List PStr × Except PyErr Bool) :=
  let isEmpty := isNone st.value && st.u == []
  if isEmpty && optional then some (errors, .ok true)
  else match validators with
    | [] => some (errors, .ok !isEmpty)
    | cs => cardLoop fuel label accepted st errors cs

end Flatland

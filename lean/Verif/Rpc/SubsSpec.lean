import Verif.Rpc.Subs
/-!
# What a client may expect of subscriptions

Stated on the messages of the connection, in the order in which they are sent.
-/
namespace Verif.Rpc.Subs

/-- The answers of a message. -/
def Msg.answers : Msg → List Ans
  | .reply as => as
  | .note _ _ => []

/-- All answers on the connection. -/
def answers (w : List Msg) : List Ans := w.flatMap Msg.answers

/-- The data notifications of a subscription, in order. -/
def dataOf (k : Nat) (w : List Msg) : List Nat := w.filterMap fun
  | .note j (.data n) => if j = k then some n else none
  | _ => none

/-- The number of notifications of a subscription, errors too. -/
def notesOf (k : Nat) (w : List Msg) : Nat := w.countP fun
  | .note j _ => j == k
  | _ => false

/-- Every notification comes after the answer that gives its id. -/
def AnswerFirst (w : List Msg) : Prop := ∀ p k n q, w = p ++ .note k n :: q → .subscribed k ∈ answers p

/-- No id is given twice. -/
def IdsUnique (w : List Msg) : Prop := (answers w |>.filterMap fun | .subscribed k => some k | _ => none).Nodup

/-- A subscription is ended by a request at most once. -/
def EndsOnce (w : List Msg) : Prop := (answers w |>.filterMap fun | .unsubscribed k => some k | _ => none).Nodup

/-- Only subscriptions that were given out are ended. -/
def EndsKnown (w : List Msg) : Prop :=
  ∀ p as q k, w = p ++ .reply as :: q → .unsubscribed k ∈ as → .subscribed k ∈ answers p ++ as

/-- After the answer to unsubscribing comes at most one data notification of it, and at most two notifications in all. -/
def EndsSoon (w : List Msg) : Prop :=
  ∀ p as q k, w = p ++ .reply as :: q → .unsubscribed k ∈ as → (dataOf k q).length ≤ 1 ∧ notesOf k q ≤ 2

end Verif.Rpc.Subs

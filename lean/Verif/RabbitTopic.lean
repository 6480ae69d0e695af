import Verif.Wildcard
/-!
# RabbitMQ broker: topics — model of `/repo/broker/rabbitmq.go:449-483, 642-654`

`SubscribeForEvents` binds a queue of its own to the exchange `amq.topic` with a key made from the pattern; the server routes an event to
the queues whose key matches the topic (AMQP 0-9-1, topic exchange: keys and topics are words separated by dots; the word `*` stands for
any one word, `#` for any number of words). Byte strings as in `Wildcard.lean`.
-/

namespace Tork.RabbitTopic
open Tork.Wildcard (star)

def dot : UInt8 := 46
def hash : UInt8 := 35

/-- `strings.ReplaceAll(pattern, "*", "#")`, `rabbitmq.go:643` -/
def bindingKey (pattern : List UInt8) : List UInt8 := pattern.map fun c => if c = star then hash else c

/-- The words of a key or topic. -/
def words : List UInt8 → List (List UInt8)
  | [] => [[]]
  | c :: s =>
    if c = dot then [] :: words s
    else match words s with
      | [] => [[c]]
      | w :: ws => (c :: w) :: ws

/-- The matching of a topic exchange (server), on words. -/
inductive Routes : List (List UInt8) → List (List UInt8) → Prop
  | nil : Routes [] []
  | word {w : List UInt8} {k t : List (List UInt8)} : w ≠ [star] → w ≠ [hash] → Routes k t → Routes (w :: k) (w :: t)
  | star {w : List UInt8} {k t : List (List UInt8)} : Routes k t → Routes ([star] :: k) (w :: t)
  | hash (a : List (List UInt8)) {k t : List (List UInt8)} : Routes k t → Routes ([hash] :: k) (a ++ t)

/-- A subscriber with this pattern gets an event published to this topic. -/
def Delivered (pattern topic : List UInt8) : Prop := Routes (words (bindingKey pattern)) (words topic)

end Tork.RabbitTopic

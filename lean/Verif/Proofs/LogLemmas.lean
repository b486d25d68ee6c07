import Verif.Spec.Log
/-! # Projections of logs -/
namespace Statig
section simpLemmas
variable {D E V T : Type}

@[simp] theorem handlersOf_nil : handlersOf ([] : List (Step D E V T)) = [] := rfl
@[simp] theorem handlersOf_handler (n : Node D E) (e : V) (l : List (Step D E V T)) :
    handlersOf (.handler n e :: l) = n :: handlersOf l := rfl
@[simp] theorem handlersOf_returned (n : Node D E) (r : Response T) (l : List (Step D E V T)) :
    handlersOf (.returned n r :: l) = handlersOf l := rfl
@[simp] theorem handlersOf_entry (n : Node D E) (l : List (Step D E V T)) :
    handlersOf (.entry n :: l) = handlersOf l := rfl
@[simp] theorem handlersOf_exit (n : Node D E) (l : List (Step D E V T)) :
    handlersOf (.exit n :: l) = handlersOf l := rfl
@[simp] theorem handlersOf_beforeDispatch (n : Node D E) (e : V) (l : List (Step D E V T)) :
    handlersOf (.beforeDispatch n e :: l) = handlersOf l := rfl
@[simp] theorem handlersOf_afterDispatch (n : Node D E) (e : V) (l : List (Step D E V T)) :
    handlersOf (.afterDispatch n e :: l) = handlersOf l := rfl
@[simp] theorem handlersOf_beforeTransition (x y : D) (l : List (Step D E V T)) :
    handlersOf (.beforeTransition x y :: l) = handlersOf l := rfl
@[simp] theorem handlersOf_afterTransition (x y : D) (l : List (Step D E V T)) :
    handlersOf (.afterTransition x y :: l) = handlersOf l := rfl
@[simp] theorem eventsOf_nil : eventsOf ([] : List (Step D E V T)) = [] := rfl
@[simp] theorem eventsOf_handler (n : Node D E) (e : V) (l : List (Step D E V T)) :
    eventsOf (.handler n e :: l) = e :: eventsOf l := rfl
@[simp] theorem eventsOf_returned (n : Node D E) (r : Response T) (l : List (Step D E V T)) :
    eventsOf (.returned n r :: l) = eventsOf l := rfl
@[simp] theorem eventsOf_entry (n : Node D E) (l : List (Step D E V T)) :
    eventsOf (.entry n :: l) = eventsOf l := rfl
@[simp] theorem eventsOf_exit (n : Node D E) (l : List (Step D E V T)) :
    eventsOf (.exit n :: l) = eventsOf l := rfl
@[simp] theorem eventsOf_beforeDispatch (n : Node D E) (e : V) (l : List (Step D E V T)) :
    eventsOf (.beforeDispatch n e :: l) = eventsOf l := rfl
@[simp] theorem eventsOf_afterDispatch (n : Node D E) (e : V) (l : List (Step D E V T)) :
    eventsOf (.afterDispatch n e :: l) = eventsOf l := rfl
@[simp] theorem eventsOf_beforeTransition (x y : D) (l : List (Step D E V T)) :
    eventsOf (.beforeTransition x y :: l) = eventsOf l := rfl
@[simp] theorem eventsOf_afterTransition (x y : D) (l : List (Step D E V T)) :
    eventsOf (.afterTransition x y :: l) = eventsOf l := rfl
@[simp] theorem responsesOf_nil : responsesOf ([] : List (Step D E V T)) = [] := rfl
@[simp] theorem responsesOf_handler (n : Node D E) (e : V) (l : List (Step D E V T)) :
    responsesOf (.handler n e :: l) = responsesOf l := rfl
@[simp] theorem responsesOf_returned (n : Node D E) (r : Response T) (l : List (Step D E V T)) :
    responsesOf (.returned n r :: l) = (n, r) :: responsesOf l := rfl
@[simp] theorem responsesOf_entry (n : Node D E) (l : List (Step D E V T)) :
    responsesOf (.entry n :: l) = responsesOf l := rfl
@[simp] theorem responsesOf_exit (n : Node D E) (l : List (Step D E V T)) :
    responsesOf (.exit n :: l) = responsesOf l := rfl
@[simp] theorem responsesOf_beforeDispatch (n : Node D E) (e : V) (l : List (Step D E V T)) :
    responsesOf (.beforeDispatch n e :: l) = responsesOf l := rfl
@[simp] theorem responsesOf_afterDispatch (n : Node D E) (e : V) (l : List (Step D E V T)) :
    responsesOf (.afterDispatch n e :: l) = responsesOf l := rfl
@[simp] theorem responsesOf_beforeTransition (x y : D) (l : List (Step D E V T)) :
    responsesOf (.beforeTransition x y :: l) = responsesOf l := rfl
@[simp] theorem responsesOf_afterTransition (x y : D) (l : List (Step D E V T)) :
    responsesOf (.afterTransition x y :: l) = responsesOf l := rfl
@[simp] theorem entriesOf_nil : entriesOf ([] : List (Step D E V T)) = [] := rfl
@[simp] theorem entriesOf_handler (n : Node D E) (e : V) (l : List (Step D E V T)) :
    entriesOf (.handler n e :: l) = entriesOf l := rfl
@[simp] theorem entriesOf_returned (n : Node D E) (r : Response T) (l : List (Step D E V T)) :
    entriesOf (.returned n r :: l) = entriesOf l := rfl
@[simp] theorem entriesOf_entry (n : Node D E) (l : List (Step D E V T)) :
    entriesOf (.entry n :: l) = n :: entriesOf l := rfl
@[simp] theorem entriesOf_exit (n : Node D E) (l : List (Step D E V T)) :
    entriesOf (.exit n :: l) = entriesOf l := rfl
@[simp] theorem entriesOf_beforeDispatch (n : Node D E) (e : V) (l : List (Step D E V T)) :
    entriesOf (.beforeDispatch n e :: l) = entriesOf l := rfl
@[simp] theorem entriesOf_afterDispatch (n : Node D E) (e : V) (l : List (Step D E V T)) :
    entriesOf (.afterDispatch n e :: l) = entriesOf l := rfl
@[simp] theorem entriesOf_beforeTransition (x y : D) (l : List (Step D E V T)) :
    entriesOf (.beforeTransition x y :: l) = entriesOf l := rfl
@[simp] theorem entriesOf_afterTransition (x y : D) (l : List (Step D E V T)) :
    entriesOf (.afterTransition x y :: l) = entriesOf l := rfl
@[simp] theorem exitsOf_nil : exitsOf ([] : List (Step D E V T)) = [] := rfl
@[simp] theorem exitsOf_handler (n : Node D E) (e : V) (l : List (Step D E V T)) :
    exitsOf (.handler n e :: l) = exitsOf l := rfl
@[simp] theorem exitsOf_returned (n : Node D E) (r : Response T) (l : List (Step D E V T)) :
    exitsOf (.returned n r :: l) = exitsOf l := rfl
@[simp] theorem exitsOf_entry (n : Node D E) (l : List (Step D E V T)) :
    exitsOf (.entry n :: l) = exitsOf l := rfl
@[simp] theorem exitsOf_exit (n : Node D E) (l : List (Step D E V T)) :
    exitsOf (.exit n :: l) = n :: exitsOf l := rfl
@[simp] theorem exitsOf_beforeDispatch (n : Node D E) (e : V) (l : List (Step D E V T)) :
    exitsOf (.beforeDispatch n e :: l) = exitsOf l := rfl
@[simp] theorem exitsOf_afterDispatch (n : Node D E) (e : V) (l : List (Step D E V T)) :
    exitsOf (.afterDispatch n e :: l) = exitsOf l := rfl
@[simp] theorem exitsOf_beforeTransition (x y : D) (l : List (Step D E V T)) :
    exitsOf (.beforeTransition x y :: l) = exitsOf l := rfl
@[simp] theorem exitsOf_afterTransition (x y : D) (l : List (Step D E V T)) :
    exitsOf (.afterTransition x y :: l) = exitsOf l := rfl
@[simp] theorem actionsOf_nil : actionsOf ([] : List (Step D E V T)) = [] := rfl
@[simp] theorem actionsOf_handler (n : Node D E) (e : V) (l : List (Step D E V T)) :
    actionsOf (.handler n e :: l) = actionsOf l := rfl
@[simp] theorem actionsOf_returned (n : Node D E) (r : Response T) (l : List (Step D E V T)) :
    actionsOf (.returned n r :: l) = actionsOf l := rfl
@[simp] theorem actionsOf_entry (n : Node D E) (l : List (Step D E V T)) :
    actionsOf (.entry n :: l) = .enter n :: actionsOf l := rfl
@[simp] theorem actionsOf_exit (n : Node D E) (l : List (Step D E V T)) :
    actionsOf (.exit n :: l) = .leave n :: actionsOf l := rfl
@[simp] theorem actionsOf_beforeDispatch (n : Node D E) (e : V) (l : List (Step D E V T)) :
    actionsOf (.beforeDispatch n e :: l) = actionsOf l := rfl
@[simp] theorem actionsOf_afterDispatch (n : Node D E) (e : V) (l : List (Step D E V T)) :
    actionsOf (.afterDispatch n e :: l) = actionsOf l := rfl
@[simp] theorem actionsOf_beforeTransition (x y : D) (l : List (Step D E V T)) :
    actionsOf (.beforeTransition x y :: l) = actionsOf l := rfl
@[simp] theorem actionsOf_afterTransition (x y : D) (l : List (Step D E V T)) :
    actionsOf (.afterTransition x y :: l) = actionsOf l := rfl

end simpLemmas
end Statig

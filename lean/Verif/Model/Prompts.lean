import Verif.Py.Str
/-
The two prompt templates of /repo/math_evaluation/llms/prompts.py, as the lines of the evaluated
Python string literals (so `\t` in the source is a tab and `\f` a form feed here, as in Python).
-/

namespace Verif

/-- prompts.py:1-212 `prompt_template`, its lines -/
def promptTemplateLines : List Str := [
  s%"You are a professional mathematical expert. Your task is to determine the answer type given the question statement. The possible answer types are listed as follows:",
  s%"",
  s%"1. Real",
  s%"",
  s%"\tDefinition: A real number is a number that can be used to measure a continuous one-dimensional quantity such as a distance, duration or temperature.",
  s%"",
  s%"\tExample 1",
  s%"",
  s%"Question: James creates a movie for $2000. Each DVD cost $6 to make. He sells it for 2.5 times that much. He sells 500 movies a day for 5 days a week. How much profit does he make in 20 weeks?",
  s%"Answer: $448,000$",
  s%"Analysis: Because the question asks about the profits, it means the answer $448,000$ should be a real number. So the comma is placed every third digit to the left of the decimal point and so is used in numbers with four or more digits. ",
  s%"Type: Real",
  s%"",
  s%"\tExample 2",
  s%"",
  s%"Question: Solve the equation $x^2 - 2x + 1 = 0$.",
  s%"Answer: $x = 1$",
  s%"Analysis: The question requires the solution of an equation, and the answer \"$x = 1$\" is an equation that gives the specific real number solution for the variable $x$. So the answer is a real number.",
  s%"Type: Real",
  s%"",
  s%"2. Complex",
  s%"",
  s%"\tDefinition: A complex number is a number that can be written in the form of $a + bi$, where $a$ and $b$ are real numbers and $i$ is the imaginary unit. ",
  s%"",
  s%"\tExample 1",
  s%"",
  s%"Question: Simplify $-3(1+4i)+i(-2-i)$.",
  s%"Answer: $-2-14i$",
  s%"Analysis: The answer is in the form $a + bi$ where $a=-2$ and $b=-14$. ",
  s%"Type: Complex",
  s%"",
  s%"\tExample 2",
  s%"",
  s%"Question: Calculate $e^{{\\pi i}}$.",
  s%"Answer: $-1$",
  s%"Analysis: Even the question asks for the calculation on complex domain, the simplfied result is $-1$ reduces to a real number.",
  s%"Type: Real",
  s%"",
  s%"3. Set",
  s%"",
  s%"\tDefinition: A set is a collection of different elements; these elements are typically mathematical objects of any kind.",
  s%"",
  s%"\tExample 1",
  s%"",
  s%"Question: Find all values of $k,$ for which there exists a nonzero vector $\\mathbf{{v}}$ such that",
  s%"\\[\\begin{{pmatrix}} 2 & -2 & 1 \\\\ 2 & -3 & 2 \\\\ -1 & 2 & 0 \\end{{pmatrix}} \\mathbf{{v}} = k \\mathbf{{v}}.\\]",
  s%"Answer: $1,-3$",
  s%"Analysis: The question requires to find all values of $k$, so the answer should be a set of $k$ values meeting the requirement.",
  s%"Type: Set",
  s%"",
  s%"\tExample 2",
  s%"",
  s%"Question: Find all postive integers of $x$ such that $|x-1| < 1$. Express the results separated by comma(s).",
  s%"Answer: 1",
  s%"Analysis: The question requires to find positive integers of $x$ satisfying the inequality, but there is only one answer $1$. So the answer type is real.",
  s%"Type: Real",
  s%"",
  s%"4. Interval(s)",
  s%"",
  s%"\tDefinition: An interval is a set of real numbers that lie between two fixed endpoints without any gaps. Intervals represent the intersection or union of several interval.",
  s%"",
  s%"\tExample 1",
  s%"",
  s%"Question: Solve the inequality $|x - 1| < 1$.",
  s%"Answer: $(0, 2)$",
  s%"Analysis: The question requires the solution of an inequality, so the answer $(0, 2)$ is an interval.",
  s%"Type: Interval(s)",
  s%"",
  s%"\tExample 2",
  s%"",
  s%"Question: What is the domain of the real-valued function $f(x)=\\frac{{2x-7}}{{\\sqrt{{x^2-5x+6}}}}$?",
  s%"Answer: $(-\\infty, 2) \\cup (3, \\infty)$",
  s%"Analysis: The answer is the union of two intervals.",
  s%"Type: Interval(s)",
  s%"",
  s%"5. Vector",
  s%"",
  s%"\tDefinition: A vector is a collection of ordered elements. These elements are typically mathematical objects of any kind. They can be equal but their order matters.",
  s%"",
  s%"\tExample 1",
  s%"",
  s%"Question: Find the interception of the line $y = -x + 2$ and the y-axis.",
  s%"Answer: $(0, 2)$",
  s%"Analysis: The interception of a line and the y-axis is a point, so the answer $(0, 2)$ represents the (x, y) coordinate and the order matters, which is a 2-dimensional vector.",
  s%"Type: Vector",
  s%"",
  s%"\tExample 2",
  s%"",
  s%"Question: Find all positive integer values of $c$ such that the equation $x^2-7x+c=0$ only has roots that are real and rational. Express them in decreasing order, separated by commas.",
  s%"Answer: $12, 10, 6$",
  s%"Analysis: The question requires to find the roots and rational, but the answer is NOT the set type. The question also requires to express the answer in decreasing order and the set is unordered, so the correct type is vector.",
  s%"Type: Vector",
  s%"",
  s%"6. Matrix",
  s%"",
  s%"\tDefinition: a rectangular array or table of numbers, symbols, or expressions, arranged in rows and columns, which is used to represent a mathematical object or a property of such an object.",
  s%"",
  s%"\tExample 1",
  s%"",
  s%"Question: A plane $P$ is parmeterized by",
  s%"\\[\\mathbf{{v}} = \\begin{{pmatrix}} 1 \\\\ 6 \\\\ 7 \\end{{pmatrix}} + t \\begin{{pmatrix}} 2 \\\\ -1 \\\\ -1 \\end{{pmatrix}} + s \\begin{{pmatrix}} 2 \\\\ -3 \\\\ -5 \\end{{pmatrix}},\\]and line $L$ is parameterized by",
  s%"\\[\\mathbf{{w}} = \\begin{{pmatrix}} 7 \\\\ 4 \\\\ 1 \\end{{pmatrix}} + u \\begin{{pmatrix}} 3 \\\\ 0 \\\\ -1 \\end{{pmatrix}}.\\]Find the intersection of plane $P$ and line $L.$",
  s%"Answer: $\\begin{{pmatrix}} 1 \\\\ 4 \\\\ 3 \\end{{pmatrix}}$",
  s%"Analysis: Even the answer is a matrix with shape $3 \\times 1$, which is a column vector, but the answer is in the form of $\\begin{{pmatrix}} ... \\end{{pmatrix}}$. We prefer the type Matrix.",
  s%"Type: Matrix",
  s%"",
  s%"\tExample 2",
  s%"",
  s%"Question: For a 2 by 2 matrix $A$, can you find another matrix $B$, such that $AB = A$?",
  s%"Answer: $[[0, 1], [1, 0]]$",
  s%"Analysis: The answer is in the form of list of list, where each inner list has the same number of elements. We can conclude that the answer type is matrix.",
  s%"Type: Matrix",
  s%"",
  s%"7. Expression",
  s%"",
  s%"\tDefinition: An expression is combination of symbols that is well-formed according to rules that depend on the context. There is usually at least one unknown variable, but no equal sign $=$ in the symbols.",
  s%"",
  s%"\tExample 1",
  s%"",
  s%"Question: Simplify $7a^3(3a^2 - a) - 8a(2a - 4)$.",
  s%"Answer: $21a^5 - 7a^4 - 16a^2 + 32a$",
  s%"Analysis: The answer is a polynomial with unknown variable $a$, so the type is expression.",
  s%"Type: Expression",
  s%"",
  s%"\tExample 2",
  s%"",
  s%"Question: Calculate the area of a circle with radius $2$.",
  s%"Answer: $4\\pi$",
  s%"Analysis: The symbol $\\pi$ represents a mathematical constant, which is a real number. The type of answer $4\\pi$ is real.",
  s%"Type: Real",
  s%"",
  s%"8. Function",
  s%"",
  s%"\tDefinition: A function from a set $X$ to a set $Y$ is an assignment of an element of $Y$ to each element of $X$. In our case, it is usually expressed as $f(x) = ...$ or $y = ...$.",
  s%"",
  s%"\tExample 1",
  s%"",
  s%"Question: A parabola has vertex $(4,2)$ and passes through $(2,0).$ Find the quadratic function that represents the parabola.",
  s%"Answer: $f(x) = -\\frac{{1}}{{2}} x^2 + 4x - 6$",
  s%"Analysis: The answer is a quadratic function which represents the parabola.",
  s%"Type: Function",
  s%"",
  s%"\tExample 2",
  s%"",
  s%"Question: A parabola has vertex $(4,2)$ and passes through $(2,0).$ Find the equation of the parabola.",
  s%"Answer: $y = -\\frac{{1}}{{2}} x^2 + 4x - 6$",
  s%"Analysis: The answer is a quadratic function starts with $y = ...$ which represents the parabola. Either Function or Equation should be correct.",
  s%"Type: Function",
  s%"",
  s%"\tExample 3",
  s%"",
  s%"Question: Find the maximum value of the quadratic function $y = -x^2 + 4x - 6$.",
  s%"Answer: $y = -2$",
  s%"Analysis: The question asks for calculating the maximum value of a function. The answer $y = -2$ represents the maxmium value $-2$, which is real number. ",
  s%"Type: Real",
  s%"",
  s%"9. Equation",
  s%"",
  s%"\tDefinition: A equation states that two or more quantities are the same as one another, also called an equality or formula, in the form of $A = B$. In our case, at least one of $A$ and $B$ should have unknown variables. ",
  s%"",
  s%"\tExample 1",
  s%"",
  s%"Question: For a circle with its center as the origin, its curve also passes through $(-2, \\sqrt{{5}})$. What is its equation?",
  s%"Answer: $x^2 + y^2 = 9$",
  s%"Analysis: The answer is the circle equation $(x - h)^2 + (y - k)^2 = r^2$ where $h = k = 0$ and $r = 3$.",
  s%"Type: Equation",
  s%"",
  s%"\tExample 2",
  s%"",
  s%"Question: A parabola has vertex $(4,2)$ and passes through $(2,0).$ Find the equation of the parabola.",
  s%"Answer: $y = -\\frac{{1}}{{2}} x^2 + 4x - 6$",
  s%"Analysis: The answer is a quadratic function starts with $y = ...$ which represents the parabola. Either Function and Equation should be correct.",
  s%"Type: Equation",
  s%"",
  s%"\tExample 3",
  s%"",
  s%"Question: Find the tangent line of the circle $x^2 + y^2 = 4$ at point $(-2, 0)$.",
  s%"Answer: $y = -2$",
  s%"Analysis: The answer $y = -2$ represents the equation of the tangent line, NOT a real number.",
  s%"Type: Equation",
  s%"",
  s%"10. Inequality",
  s%"",
  s%"\tDefinition: An inequality is a relation which makes a non-equal comparison between two numbers or other mathematical expressions.",
  s%"",
  s%"\tExample 1",
  s%"",
  s%"Question: The quadratic $f(x) = x^2 + bx + c$ satisfies $f(2 + t) = f(2 - t)$ for all real numbers $t.$ Find the relationship between the values of $f(1),$ $f(2),$ and $f(4)$.",
  s%"Answer: $f(2) < f(1) < f(4)$",
  s%"Anaylsis: The relation is represented in the form of inequality.",
  s%"Type: Inequality",
  s%"",
  s%"\tExample 2",
  s%"",
  s%"Question: Solve the inequality $|x - 1| < 1$.",
  s%"Answer: $0 < x < 2$",
  s%"Analysis: The solution of the inequality is also in the form of an inequality.",
  s%"Type: Inequality",
  s%"",
  s%"11. Others",
  s%"",
  s%"\tDefinition: If you can think the answer type is not one of above 10 types, select Others.",
  s%"",
  s%"### Now! It's your turn. Remember to refer the definitions and examples, and follow the required template.",
  s%"",
  s%"Question: the input question",
  s%"Answer: the provided answer",
  s%"Analysis: the analysis of type",
  s%"Type: the type from the candidate types",
  s%"",
  s%"### Begin!",
  s%"",
  s%"Question: {question}",
  s%"Answer: {ground_truth}",
  s%"Analysis:"]

/-- prompts.py:1-212 `prompt_template` -/
def promptTemplate : Str := join ['\n'] promptTemplateLines

/-- prompts.py:215-383 `prompt_template_2`, its lines -/
def promptTemplate2Lines : List Str := [
  s%"You are a professional mathematical expert. Your task is to determine the answer type given the question statement. The possible answer types are listed as follows:",
  s%"",
  s%"1. Real",
  s%"",
  s%"\tDefinition: A real number is a number that can be used to measure a continuous one-dimensional quantity such as a distance, duration or temperature.",
  s%"",
  s%"2. Complex",
  s%"",
  s%"\tDefinition: A complex number is a number that can be written in the form of $a + bi$, where $a$ and $b$ are real numbers and $i$ is the imaginary unit. ",
  s%"",
  s%"3. Set",
  s%"",
  s%"\tDefinition: A set is a collection of different elements; these elements are typically mathematical objects of any kind.",
  s%"",
  s%"4. Interval(s)",
  s%"",
  s%"\tDefinition: An interval is a set of real numbers that lie between two fixed endpoints without any gaps. Intervals represent the intersection or union of several interval.",
  s%"",
  s%"5. Vector",
  s%"",
  s%"\tDefinition: A vector is a collection of ordered elements. These elements are typically mathematical objects of any kind. They can be equal but their order matters.",
  s%"",
  s%"6. Matrix",
  s%"",
  s%"\tDefinition: a rectangular array or table of numbers, symbols, or expressions, arranged in rows and columns, which is used to represent a mathematical object or a property of such an object.",
  s%"",
  s%"7. Expression",
  s%"",
  s%"\tDefinition: An expression is combination of symbols that is well-formed according to rules that depend on the context. There is usually at least one unknown variable, but no equal sign $=$ in the symbols.",
  s%"",
  s%"8. Function",
  s%"",
  s%"\tDefinition: A function from a set $X$ to a set $Y$ is an assignment of an element of $Y$ to each element of $X$. In our case, it is usually expressed as $f(x) = ...$ or $y = ...$.",
  s%"",
  s%"9. Equation",
  s%"",
  s%"\tDefinition: A equation states that two or more quantities are the same as one another, also called an equality or formula, in the form of $A = B$. In our case, at least one of $A$ and $B$ should have unknown variables. ",
  s%"",
  s%"10. Inequality",
  s%"",
  s%"\tDefinition: An inequality is a relation which makes a non-equal comparison between two numbers or other mathematical expressions.",
  s%"",
  s%"11. Others",
  s%"",
  s%"\tDefinition: If you can think the answer type is not one of above 10 types, select Others.",
  s%"",
  s%"### The following are several demonstration examples.",
  s%"",
  s%"Question: James creates a movie for $2000. Each DVD cost $6 to make. He sells it for 2.5 times that much. He sells 500 movies a day for 5 days a week. How much profit does he make in 20 weeks?",
  s%"Answer: $448,000$",
  s%"Analysis: Because the question asks about the profits, it means the answer $448,000$ should be a real number. So the comma is placed every third digit to the left of the decimal point and so is used in numbers with four or more digits. ",
  s%"Type: Real",
  s%"",
  s%"Question: Solve the equation $x^2 - 2x + 1 = 0$.",
  s%"Answer: $x = 1$",
  s%"Analysis: The question requires the solution of an equation, and the answer \"$x = 1$\" is an equation that gives the specific real number solution for the variable $x$. So the answer is a real number.",
  s%"Type: Real",
  s%"",
  s%"Question: Simplify $-3(1+4i)+i(-2-i)$.",
  s%"Answer: $-2-14i$",
  s%"Analysis: The answer is in the form $a + bi$ where $a=-2$ and $b=-14$. ",
  s%"Type: Complex",
  s%"",
  s%"Question: Calculate $e^{{\\pi i}}$.",
  s%"Answer: $-1$",
  s%"Analysis: Even the question asks for the calculation on complex domain, the simplfied result is $-1$ reduces to a real number.",
  s%"Type: Real",
  s%"",
  s%"Question: Find all values of $k,$ for which there exists a nonzero vector $\\mathbf{{v}}$ such that",
  s%"\\[\\begin{{pmatrix}} 2 & -2 & 1 \\\\ 2 & -3 & 2 \\\\ -1 & 2 & 0 \\end{{pmatrix}} \\mathbf{{v}} = k \\mathbf{{v}}.\\]",
  s%"Answer: $1,-3$",
  s%"Analysis: The question requires to find all values of $k$, so the answer should be a set of $k$ values meeting the requirement.",
  s%"Type: Set",
  s%"",
  s%"Question: Find all postive integers of $x$ such that $|x-1| < 1$. Express the results separated by comma(s).",
  s%"Answer: 1",
  s%"Analysis: The question requires to find positive integers of $x$ satisfying the inequality, but there is only one answer $1$. So the answer type is real.",
  s%"Type: Real",
  s%"",
  s%"Question: Solve the inequality $|x - 1| < 1$.",
  s%"Answer: $(0, 2)$",
  s%"Analysis: The question requires the solution of an inequality, so the answer $(0, 2)$ is an interval.",
  s%"Type: Interval(s)",
  s%"",
  s%"Question: What is the domain of the real-valued function $f(x)=\\frac{{2x-7}}{{\\sqrt{{x^2-5x+6}}}}$?",
  s%"Answer: $(-\\infty, 2) \\cup (3, \\infty)$",
  s%"Analysis: The answer is the union of two intervals.",
  s%"Type: Interval(s)",
  s%"",
  s%"Question: Find the interception of the line $y = -x + 2$ and the y-axis.",
  s%"Answer: $(0, 2)$",
  s%"Analysis: The interception of a line and the y-axis is a point, so the answer $(0, 2)$ represents the (x, y) coordinate and the order matters, which is a 2-dimensional vector.",
  s%"Type: Vector",
  s%"",
  s%"Question: Find all positive integer values of $c$ such that the equation $x^2-7x+c=0$ only has roots that are real and rational. Express them in decreasing order, separated by commas.",
  s%"Answer: $12, 10, 6$",
  s%"Analysis: The question requires to find the roots and rational, but the answer is NOT the set type. The question also requires to express the answer in decreasing order and the set is unordered, so the correct type is vector.",
  s%"Type: Vector",
  s%"",
  s%"Question: A plane $P$ is parmeterized by",
  s%"\\[\\mathbf{{v}} = \\begin{{pmatrix}} 1 \\\\ 6 \\\\ 7 \\end{{pmatrix}} + t \\begin{{pmatrix}} 2 \\\\ -1 \\\\ -1 \\end{{pmatrix}} + s \\begin{{pmatrix}} 2 \\\\ -3 \\\\ -5 \\end{{pmatrix}},\\]and line $L$ is parameterized by",
  s%"\\[\\mathbf{{w}} = \\begin{{pmatrix}} 7 \\\\ 4 \\\\ 1 \\end{{pmatrix}} + u \\begin{{pmatrix}} 3 \\\\ 0 \\\\ -1 \\end{{pmatrix}}.\\]Find the intersection of plane $P$ and line $L.$",
  s%"Answer: $\\begin{{pmatrix}} 1 \\\\ 4 \\\\ 3 \\end{{pmatrix}}$",
  s%"Analysis: Even the answer is a matrix with shape $3 \\times 1$, which is a column vector, but the answer is in the form of $\\begin{{pmatrix}} ... \\end{{pmatrix}}$. We prefer the type Matrix.",
  s%"Type: Matrix",
  s%"",
  s%"Question: For a 2 by 2 matrix $A$, can you find another matrix $B$, such that $AB = A$?",
  s%"Answer: $[[0, 1], [1, 0]]$",
  s%"Analysis: The answer is in the form of list of list, where each inner list has the same number of elements. We can conclude that the answer type is matrix.",
  s%"Type: Matrix",
  s%"",
  s%"Question: Simplify $7a^3(3a^2 - a) - 8a(2a - 4)$.",
  s%"Answer: $21a^5 - 7a^4 - 16a^2 + 32a$",
  s%"Analysis: The answer is a polynomial with unknown variable $a$, so the type is expression.",
  s%"Type: Expression",
  s%"",
  s%"Question: Calculate the area of a circle with radius $2$.",
  s%"Answer: $4\\pi$",
  s%"Analysis: The symbol $\\pi$ represents a mathematical constant, which is a real number. The type of answer $4\\pi$ is real.",
  s%"Type: Real",
  s%"",
  s%"Question: A parabola has vertex $(4,2)$ and passes through $(2,0).$ Find the quadratic function that represents the parabola.",
  s%"Answer: $f(x) = -\\frac{{1}}{{2}} x^2 + 4x - 6$",
  s%"Analysis: The answer is a quadratic function which represents the parabola.",
  s%"Type: Function",
  s%"",
  s%"Question: A parabola has vertex $(4,2)$ and passes through $(2,0).$ Find the equation of the parabola.",
  s%"Answer: $y = -\\frac{{1}}{{2}} x^2 + 4x - 6$",
  s%"Analysis: The answer is a quadratic function starts with $y = ...$ which represents the parabola. Either Function or Equation should be correct.",
  s%"Type: Function",
  s%"",
  s%"Question: Find the maximum value of the quadratic function $y = -x^2 + 4x - 6$.",
  s%"Answer: $y = -2$",
  s%"Analysis: The question asks for calculating the maximum value of a function. The answer $y = -2$ represents the maxmium value $-2$, which is real number. ",
  s%"Type: Real",
  s%"",
  s%"Question: For a circle with its center as the origin, its curve also passes through $(-2, \\sqrt{{5}})$. What is its equation?",
  s%"Answer: $x^2 + y^2 = 9$",
  s%"Analysis: The answer is the circle equation $(x - h)^2 + (y - k)^2 = r^2$ where $h = k = 0$ and $r = 3$.",
  s%"Type: Equation",
  s%"",
  s%"Question: A parabola has vertex $(4,2)$ and passes through $(2,0).$ Find the equation of the parabola.",
  s%"Answer: $y = -\\frac{{1}}{{2}} x^2 + 4x - 6$",
  s%"Analysis: The answer is a quadratic function starts with $y = ...$ which represents the parabola. Either Function and Equation should be correct.",
  s%"Type: Equation",
  s%"",
  s%"Question: Find the tangent line of the circle $x^2 + y^2 = 4$ at point $(-2, 0)$.",
  s%"Answer: $y = -2$",
  s%"Analysis: The answer $y = -2$ represents the equation of the tangent line, NOT a real number.",
  s%"Type: Equation",
  s%"",
  s%"Question: The quadratic $f(x) = x^2 + bx + c$ satisfies $f(2 + t) = f(2 - t)$ for all real numbers $t.$ Find the relationship between the values of $f(1),$ $f(2),$ and $f(4)$.",
  s%"Answer: $f(2) < f(1) < f(4)$",
  s%"Anaylsis: The relation is represented in the form of inequality.",
  s%"Type: Inequality",
  s%"",
  s%"Question: Solve the inequality $|x - 1| < 1$.",
  s%"Answer: $0 < x < 2$",
  s%"Analysis: The solution of the inequality is also in the form of an inequality.",
  s%"Type: Inequality",
  s%"",
  s%"### Now! It's your turn. Remember to refer the definitions and examples, and follow the required template.",
  s%"",
  s%"Question: the input question",
  s%"Answer: the provided answer",
  s%"Analysis: the analysis of type",
  s%"Type: the type from the candidate types",
  s%"",
  s%"### Begin!",
  s%"Question: {question}",
  s%"Answer: {ground_truth}",
  s%"Analysis:"]

/-- prompts.py:215-383 `prompt_template_2` -/
def promptTemplate2 : Str := join ['\n'] promptTemplate2Lines

end Verif

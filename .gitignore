lean/.lake/
__pycache__/
